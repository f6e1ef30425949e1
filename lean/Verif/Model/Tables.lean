import Verif.Model.CssParse
import Verif.Model.Parser

/-!
# The tables of renderers, as the constructor gets them: `gopher_render/_parser.py`

`Cfg` holds tables whose selectors have been read; here they are dictionaries from selector texts.
-/

namespace Verif

/-- A table without its trees. -/
def tableOf (rules : List Rule) : DictOf RSpec := rules.map (fun r => (r.key, r.spec))

/-- The table `renderers` before the user's entries are added, `_parser.py` 383-442. -/
def defaultTable : DictOf RSpec := (py"", .cls .renderer) :: tableOf defaultRules

/-- `GopherHTMLParser.__init__`, `_parser.py` 361-364 and 443-452: the two tables with their selectors read, and the default
renderer. -/
def initTables (c : Cfg) (user links : DictOf RSpec) : Py (List Rule × List Rule × RSpec) := do
  let _ ← initParser c
  let table := DictOf.update defaultTable user
  let linkTable := DictOf.update (tableOf defaultLinkRules) links
  match DictOf.get table py"" with
  | none => .error .keyError
  | some default =>
    let rules ← readRules (DictOf.erase table py"")
    let linkRules ← readRules linkTable
    return (rules, linkRules, default)

end Verif
