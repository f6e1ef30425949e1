import Verif.Model.Cascade

/-!
# The code themes: `gopher_render/code_themes/*.py`

Each module defines a dict `renderers` to be passed to the parser. All values are pairs of `AnsiEscapeCodeRenderer` and
settings. The names of colours defined at the top of a module are replaced by their values; the variables
`background_colour` and `foreground_colour` are not used by the code and left out.
-/

namespace Verif

/-- `.name` as `cssselect` parses it. -/
def dot (name : Str) : Sel := .cls (.element none) name

/-- `.a .b` -/
def under (a b : Sel) : Sel := .comb a .desc b

/-- An entry `key: (AnsiEscapeCodeRenderer, settings)`. -/
def themeRule (key : Str) (sels : List Sel) (settings : Dict) : Rule :=
  ⟨key, sels.map (fun s => { tree := s }), .pair (some .ansi) (some settings)⟩

/-- `code_themes/autumn.py` 8-75. -/
def autumnTheme : List Rule :=
  [
    themeRule py".highlight .hll" [under (dot py"highlight") (dot py"hll")]
      [(py"background_colour", .str py"#ffffcc")],
    themeRule py".highlight" [dot py"highlight"] [(py"background_colour", .str py"#ffffff")],
    themeRule py".highlight .c" [under (dot py"highlight") (dot py"c")]
      [(py"foreground_colour", .str py"#aaaaaa"), (py"italic", .bool true)],
    themeRule py".highlight .err" [under (dot py"highlight") (dot py"err")]
      [(py"foreground_colour", .str py"#FF0000"), (py"background_colour", .str py"#FFAAAA")],
    themeRule py".highlight .k" [under (dot py"highlight") (dot py"k")] [(py"foreground_colour", .str py"#0000aa")],
    themeRule py".highlight .ch" [under (dot py"highlight") (dot py"ch")]
      [(py"foreground_colour", .str py"#aaaaaa"), (py"italic", .bool true)],
    themeRule py".highlight .cm" [under (dot py"highlight") (dot py"cm")]
      [(py"foreground_colour", .str py"#aaaaaa"), (py"italic", .bool true)],
    themeRule py".highlight .cp" [under (dot py"highlight") (dot py"cp")] [(py"foreground_colour", .str py"#4c8317")],
    themeRule py".highlight .cpf" [under (dot py"highlight") (dot py"cpf")]
      [(py"foreground_colour", .str py"#aaaaaa"), (py"italic", .bool true)],
    themeRule py".highlight .c1" [under (dot py"highlight") (dot py"c1")]
      [(py"foreground_colour", .str py"#aaaaaa"), (py"italic", .bool true)],
    themeRule py".highlight .cs" [under (dot py"highlight") (dot py"cs")]
      [(py"foreground_colour", .str py"#0000aa"), (py"italic", .bool true)],
    themeRule py".highlight .gd" [under (dot py"highlight") (dot py"gd")] [(py"foreground_colour", .str py"#aa0000")],
    themeRule py".highlight .ge" [under (dot py"highlight") (dot py"ge")] [(py"italic", .bool true)],
    themeRule py".highlight .gr" [under (dot py"highlight") (dot py"gr")] [(py"foreground_colour", .str py"#aa0000")],
    themeRule py".highlight .gh" [under (dot py"highlight") (dot py"gh")]
      [(py"foreground_colour", .str py"#000080"), (py"bold", .bool true)],
    themeRule py".highlight .gi" [under (dot py"highlight") (dot py"gi")] [(py"foreground_colour", .str py"#00aa00")],
    themeRule py".highlight .go" [under (dot py"highlight") (dot py"go")] [(py"foreground_colour", .str py"#888888")],
    themeRule py".highlight .gp" [under (dot py"highlight") (dot py"gp")] [(py"foreground_colour", .str py"#555555")],
    themeRule py".highlight .gs" [under (dot py"highlight") (dot py"gs")] [(py"bold", .bool true)],
    themeRule py".highlight .gu" [under (dot py"highlight") (dot py"gu")]
      [(py"foreground_colour", .str py"#800080"), (py"bold", .bool true)],
    themeRule py".highlight .gt" [under (dot py"highlight") (dot py"gt")] [(py"foreground_colour", .str py"#aa0000")],
    themeRule py".highlight .kc" [under (dot py"highlight") (dot py"kc")] [(py"foreground_colour", .str py"#0000aa")],
    themeRule py".highlight .kd" [under (dot py"highlight") (dot py"kd")] [(py"foreground_colour", .str py"#0000aa")],
    themeRule py".highlight .kn" [under (dot py"highlight") (dot py"kn")] [(py"foreground_colour", .str py"#0000aa")],
    themeRule py".highlight .kp" [under (dot py"highlight") (dot py"kp")] [(py"foreground_colour", .str py"#0000aa")],
    themeRule py".highlight .kr" [under (dot py"highlight") (dot py"kr")] [(py"foreground_colour", .str py"#0000aa")],
    themeRule py".highlight .kt" [under (dot py"highlight") (dot py"kt")] [(py"foreground_colour", .str py"#00aaaa")],
    themeRule py".highlight .m" [under (dot py"highlight") (dot py"m")] [(py"foreground_colour", .str py"#009999")],
    themeRule py".highlight .s" [under (dot py"highlight") (dot py"s")] [(py"foreground_colour", .str py"#aa5500")],
    themeRule py".highlight .na" [under (dot py"highlight") (dot py"na")] [(py"foreground_colour", .str py"#1e90ff")],
    themeRule py".highlight .nb" [under (dot py"highlight") (dot py"nb")] [(py"foreground_colour", .str py"#00aaaa")],
    themeRule py".highlight .nc" [under (dot py"highlight") (dot py"nc")] [(py"foreground_colour", .str py"#00aa00")],
    themeRule py".highlight .no" [under (dot py"highlight") (dot py"no")] [(py"foreground_colour", .str py"#aa0000")],
    themeRule py".highlight .nd" [under (dot py"highlight") (dot py"nd")] [(py"foreground_colour", .str py"#888888")],
    themeRule py".highlight .ni" [under (dot py"highlight") (dot py"ni")]
      [(py"foreground_colour", .str py"#880000"), (py"bold", .bool true)],
    themeRule py".highlight .nf" [under (dot py"highlight") (dot py"nf")] [(py"foreground_colour", .str py"#00aa00")],
    themeRule py".highlight .nn" [under (dot py"highlight") (dot py"nn")] [(py"foreground_colour", .str py"#00aaaa")],
    themeRule py".highlight .nt" [under (dot py"highlight") (dot py"nt")]
      [(py"foreground_colour", .str py"#1e90ff"), (py"bold", .bool true)],
    themeRule py".highlight .nv" [under (dot py"highlight") (dot py"nv")] [(py"foreground_colour", .str py"#aa0000")],
    themeRule py".highlight .ow" [under (dot py"highlight") (dot py"ow")] [(py"foreground_colour", .str py"#0000aa")],
    themeRule py".highlight .w" [under (dot py"highlight") (dot py"w")] [(py"foreground_colour", .str py"#bbbbbb")],
    themeRule py".highlight .mb" [under (dot py"highlight") (dot py"mb")] [(py"foreground_colour", .str py"#009999")],
    themeRule py".highlight .mf" [under (dot py"highlight") (dot py"mf")] [(py"foreground_colour", .str py"#009999")],
    themeRule py".highlight .mh" [under (dot py"highlight") (dot py"mh")] [(py"foreground_colour", .str py"#009999")],
    themeRule py".highlight .mi" [under (dot py"highlight") (dot py"mi")] [(py"foreground_colour", .str py"#009999")],
    themeRule py".highlight .mo" [under (dot py"highlight") (dot py"mo")] [(py"foreground_colour", .str py"#009999")],
    themeRule py".highlight .sa" [under (dot py"highlight") (dot py"sa")] [(py"foreground_colour", .str py"#aa5500")],
    themeRule py".highlight .sb" [under (dot py"highlight") (dot py"sb")] [(py"foreground_colour", .str py"#aa5500")],
    themeRule py".highlight .sc" [under (dot py"highlight") (dot py"sc")] [(py"foreground_colour", .str py"#aa5500")],
    themeRule py".highlight .dl" [under (dot py"highlight") (dot py"dl")] [(py"foreground_colour", .str py"#aa5500")],
    themeRule py".highlight .sd" [under (dot py"highlight") (dot py"sd")] [(py"foreground_colour", .str py"#aa5500")],
    themeRule py".highlight .s2" [under (dot py"highlight") (dot py"s2")] [(py"foreground_colour", .str py"#aa5500")],
    themeRule py".highlight .se" [under (dot py"highlight") (dot py"se")] [(py"foreground_colour", .str py"#aa5500")],
    themeRule py".highlight .sh" [under (dot py"highlight") (dot py"sh")] [(py"foreground_colour", .str py"#aa5500")],
    themeRule py".highlight .si" [under (dot py"highlight") (dot py"si")] [(py"foreground_colour", .str py"#aa5500")],
    themeRule py".highlight .sx" [under (dot py"highlight") (dot py"sx")] [(py"foreground_colour", .str py"#aa5500")],
    themeRule py".highlight .sr" [under (dot py"highlight") (dot py"sr")] [(py"foreground_colour", .str py"#009999")],
    themeRule py".highlight .s1" [under (dot py"highlight") (dot py"s1")] [(py"foreground_colour", .str py"#aa5500")],
    themeRule py".highlight .ss" [under (dot py"highlight") (dot py"ss")] [(py"foreground_colour", .str py"#0000aa")],
    themeRule py".highlight .bp" [under (dot py"highlight") (dot py"bp")] [(py"foreground_colour", .str py"#00aaaa")],
    themeRule py".highlight .fm" [under (dot py"highlight") (dot py"fm")] [(py"foreground_colour", .str py"#00aa00")],
    themeRule py".highlight .vc" [under (dot py"highlight") (dot py"vc")] [(py"foreground_colour", .str py"#aa0000")],
    themeRule py".highlight .vg" [under (dot py"highlight") (dot py"vg")] [(py"foreground_colour", .str py"#aa0000")],
    themeRule py".highlight .vi" [under (dot py"highlight") (dot py"vi")] [(py"foreground_colour", .str py"#aa0000")],
    themeRule py".highlight .vm" [under (dot py"highlight") (dot py"vm")] [(py"foreground_colour", .str py"#aa0000")],
    themeRule py".highlight .il" [under (dot py"highlight") (dot py"il")] [(py"foreground_colour", .str py"#009999")] ]

/-- `code_themes/darkly.py` 15-30. -/
def darklyTheme : List Rule :=
  [
    themeRule py".hll" [dot py"hll"] [(py"background_colour", .str py"#ffc")],
    themeRule py".gd" [dot py"gd"]
      [(py"foreground_colour", .str py"#2e3436"), (py"background_colour", .str py"#0e1416")],
    themeRule py".gr" [dot py"gr"] [(py"foreground_colour", .str py"#eeeeec"), (py"background_colour", .str py"#c00")],
    themeRule py".gi" [dot py"gi"]
      [(py"foreground_colour", .str py"#babdb6"), (py"background_colour", .str py"#1f2b2d")],
    themeRule py".go" [dot py"go"]
      [(py"foreground_colour", .str py"#2c3032"), (py"background_colour", .str py"#2c3032")],
    themeRule py".kt" [dot py"kt"] [(py"foreground_colour", .str py"#e3e7df")],
    themeRule py".ni" [dot py"ni"] [(py"foreground_colour", .str py"#888a85")],
    themeRule py".c,.cm,.c1,.cs" [dot py"c", dot py"cm", dot py"c1", dot py"cs"]
      [(py"foreground_colour", .str py"#8D9684")],
    themeRule py".err,.g,.l,.n,.x,.p,.ge,.gp,.gs,.gt,.ld,.s,.nc,.nd,.ne,.nl,.nn,.nx,.py,.ow,.w,.sb,.sc,.sd,.s2,.se,.sh,.si,.sx,.sr,.s1,.ss,.bp" [
      dot py"err", dot py"g", dot py"l", dot py"n", dot py"x", dot py"p", dot py"ge", dot py"gp", dot py"gs",
      dot py"gt", dot py"ld", dot py"s", dot py"nc", dot py"nd", dot py"ne", dot py"nl", dot py"nn", dot py"nx",
      dot py"py", dot py"ow", dot py"w", dot py"sb", dot py"sc", dot py"sd", dot py"s2", dot py"se", dot py"sh",
      dot py"si", dot py"sx", dot py"sr", dot py"s1", dot py"ss", dot py"bp"] [(py"foreground_colour", .str py"#C1C2C3")],
    themeRule py".k,.kc,.kd,.kn,.kp,.kr,.nt" [dot py"k", dot py"kc", dot py"kd", dot py"kn", dot py"kp",
      dot py"kr", dot py"nt"] [(py"foreground_colour", .str py"#729fcf")],
    themeRule py".cp,.gh,.gu,.na,.nf" [dot py"cp", dot py"gh", dot py"gu", dot py"na", dot py"nf"]
      [(py"foreground_colour", .str py"#E9A94B")],
    themeRule py".m,.nb,.no,.mf,.mh,.mi,.mo,.il" [dot py"m", dot py"nb", dot py"no", dot py"mf", dot py"mh",
      dot py"mi", dot py"mo", dot py"il"] [(py"foreground_colour", .str py"#8ae234")],
    themeRule py".o" [dot py"o"] [(py"foreground_colour", .str py"#989DAA")],
    themeRule py".nv,.vc,.vg,.vi" [dot py"nv", dot py"vc", dot py"vg", dot py"vi"]
      [(py"foreground_colour", .str py"#fff")] ]

/-- `code_themes/darkly_ansi.py` 6-23. -/
def darklyAnsiTheme : List Rule :=
  [
    themeRule py".hll" [dot py"hll"] [(py"background_colour", .str py"bright_yellow")],
    themeRule py".gd" [dot py"gd"] [(py"foreground_colour", .str py"cyan"), (py"background_colour", .str py"black")],
    themeRule py".gr" [dot py"gr"]
      [(py"foreground_colour", .str py"bright_white"), (py"background_colour", .str py"bright_red")],
    themeRule py".gi" [dot py"gi"] [(py"foreground_colour", .str py"white"), (py"background_colour", .str py"black")],
    themeRule py".go" [dot py"go"] [(py"foreground_colour", .str py"white"), (py"background_colour", .str py"cyan")],
    themeRule py".ni" [dot py"ni"] [(py"foreground_colour", .str py"yellow")],
    themeRule py".c,.cm,.c1,.cs" [dot py"c", dot py"cm", dot py"c1", dot py"cs"]
      [(py"foreground_colour", .str py"yellow")],
    themeRule py".k,.kc,.kd,.kn,.kp,.kr,.nt" [dot py"k", dot py"kc", dot py"kd", dot py"kn", dot py"kp",
      dot py"kr", dot py"nt"] [(py"foreground_colour", .str py"blue")],
    themeRule py".cp,.gh,.gu,.na,.nf" [dot py"cp", dot py"gh", dot py"gu", dot py"na", dot py"nf"]
      [(py"foreground_colour", .str py"bright_red")],
    themeRule py".m,.nb,.no,.mf,.mh,.mi,.mo,.il" [dot py"m", dot py"nb", dot py"no", dot py"mf", dot py"mh",
      dot py"mi", dot py"mo", dot py"il"] [(py"foreground_colour", .str py"bright_green")],
    themeRule py".o" [dot py"o"] [(py"foreground_colour", .str py"bright_black")] ]

/-- `code_themes/github.py` 24-87. -/
def githubTheme : List Rule :=
  [
    themeRule py".highlight .c" [under (dot py"highlight") (dot py"c")]
      [(py"foreground_colour", .str py"#999988"), (py"italic", .bool true)],
    themeRule py".highlight .err" [under (dot py"highlight") (dot py"err")]
      [(py"foreground_colour", .str py"#a61717"), (py"background-colour", .str py"#e3d2d2")],
    themeRule py".highlight .k" [under (dot py"highlight") (dot py"k")] [(py"bold", .bool true)],
    themeRule py".highlight .o" [under (dot py"highlight") (dot py"o")] [(py"bold", .bool true)],
    themeRule py".highlight .cm" [under (dot py"highlight") (dot py"cm")]
      [(py"foreground_colour", .str py"#999988"), (py"italic", .bool true)],
    themeRule py".highlight .cp" [under (dot py"highlight") (dot py"cp")]
      [(py"foreground_colour", .str py"#999999"), (py"bold", .bool true)],
    themeRule py".highlight .c1" [under (dot py"highlight") (dot py"c1")]
      [(py"foreground_colour", .str py"#999988"), (py"italic", .bool true)],
    themeRule py".highlight .cs" [under (dot py"highlight") (dot py"cs")]
      [(py"foreground_colour", .str py"#999999"), (py"bold", .bool true), (py"italic", .bool true)],
    themeRule py".highlight .gd" [under (dot py"highlight") (dot py"gd")]
      [(py"foreground_colour", .str py"#000000"), (py"background-colour", .str py"#ffdddd")],
    themeRule py".highlight .gd .x" [under (under (dot py"highlight") (dot py"gd")) (dot py"x")]
      [(py"foreground_colour", .str py"#000000"), (py"background-colour", .str py"#ffaaaa")],
    themeRule py".highlight .ge" [under (dot py"highlight") (dot py"ge")] [(py"italic", .bool true)],
    themeRule py".highlight .gr" [under (dot py"highlight") (dot py"gr")] [(py"foreground_colour", .str py"#aa0000")],
    themeRule py".highlight .gh" [under (dot py"highlight") (dot py"gh")] [(py"foreground_colour", .str py"#999999")],
    themeRule py".highlight .gi" [under (dot py"highlight") (dot py"gi")]
      [(py"foreground_colour", .str py"#000000"), (py"background-colour", .str py"#ddffdd")],
    themeRule py".highlight .gi .x" [under (under (dot py"highlight") (dot py"gi")) (dot py"x")]
      [(py"foreground_colour", .str py"#000000"), (py"background-colour", .str py"#aaffaa")],
    themeRule py".highlight .go" [under (dot py"highlight") (dot py"go")] [(py"foreground_colour", .str py"#888888")],
    themeRule py".highlight .gp" [under (dot py"highlight") (dot py"gp")] [(py"foreground_colour", .str py"#555555")],
    themeRule py".highlight .gs" [under (dot py"highlight") (dot py"gs")] [(py"bold", .bool true)],
    themeRule py".highlight .gu" [under (dot py"highlight") (dot py"gu")]
      [(py"foreground_colour", .str py"#800080"), (py"bold", .bool true)],
    themeRule py".highlight .gt" [under (dot py"highlight") (dot py"gt")] [(py"foreground_colour", .str py"#aa0000")],
    themeRule py".highlight .kc" [under (dot py"highlight") (dot py"kc")] [(py"bold", .bool true)],
    themeRule py".highlight .kd" [under (dot py"highlight") (dot py"kd")] [(py"bold", .bool true)],
    themeRule py".highlight .kn" [under (dot py"highlight") (dot py"kn")] [(py"bold", .bool true)],
    themeRule py".highlight .kp" [under (dot py"highlight") (dot py"kp")] [(py"bold", .bool true)],
    themeRule py".highlight .kr" [under (dot py"highlight") (dot py"kr")] [(py"bold", .bool true)],
    themeRule py".highlight .kt" [under (dot py"highlight") (dot py"kt")]
      [(py"foreground_colour", .str py"#445588"), (py"bold", .bool true)],
    themeRule py".highlight .m" [under (dot py"highlight") (dot py"m")] [(py"foreground_colour", .str py"#009999")],
    themeRule py".highlight .s" [under (dot py"highlight") (dot py"s")] [(py"foreground_colour", .str py"#dd1144")],
    themeRule py".highlight .n" [under (dot py"highlight") (dot py"n")] [(py"foreground_colour", .str py"#333333")],
    themeRule py".highlight .na" [under (dot py"highlight") (dot py"na")] [(py"foreground_colour", .str py"#008080")],
    themeRule py".highlight .nb" [under (dot py"highlight") (dot py"nb")] [(py"foreground_colour", .str py"#0086b3")],
    themeRule py".highlight .nc" [under (dot py"highlight") (dot py"nc")]
      [(py"foreground_colour", .str py"#445588"), (py"bold", .bool true)],
    themeRule py".highlight .no" [under (dot py"highlight") (dot py"no")] [(py"foreground_colour", .str py"#008080")],
    themeRule py".highlight .ni" [under (dot py"highlight") (dot py"ni")] [(py"foreground_colour", .str py"#800080")],
    themeRule py".highlight .ne" [under (dot py"highlight") (dot py"ne")]
      [(py"foreground_colour", .str py"#990000"), (py"bold", .bool true)],
    themeRule py".highlight .nf" [under (dot py"highlight") (dot py"nf")]
      [(py"foreground_colour", .str py"#990000"), (py"bold", .bool true)],
    themeRule py".highlight .nn" [under (dot py"highlight") (dot py"nn")] [(py"foreground_colour", .str py"#555555")],
    themeRule py".highlight .nt" [under (dot py"highlight") (dot py"nt")] [(py"foreground_colour", .str py"#000080")],
    themeRule py".highlight .nv" [under (dot py"highlight") (dot py"nv")] [(py"foreground_colour", .str py"#008080")],
    themeRule py".highlight .ow" [under (dot py"highlight") (dot py"ow")] [(py"bold", .bool true)],
    themeRule py".highlight .w" [under (dot py"highlight") (dot py"w")] [(py"foreground_colour", .str py"#bbbbbb")],
    themeRule py".highlight .mf" [under (dot py"highlight") (dot py"mf")] [(py"foreground_colour", .str py"#009999")],
    themeRule py".highlight .mh" [under (dot py"highlight") (dot py"mh")] [(py"foreground_colour", .str py"#009999")],
    themeRule py".highlight .mi" [under (dot py"highlight") (dot py"mi")] [(py"foreground_colour", .str py"#009999")],
    themeRule py".highlight .mo" [under (dot py"highlight") (dot py"mo")] [(py"foreground_colour", .str py"#009999")],
    themeRule py".highlight .sb" [under (dot py"highlight") (dot py"sb")] [(py"foreground_colour", .str py"#dd1144")],
    themeRule py".highlight .sc" [under (dot py"highlight") (dot py"sc")] [(py"foreground_colour", .str py"#dd1144")],
    themeRule py".highlight .sd" [under (dot py"highlight") (dot py"sd")] [(py"foreground_colour", .str py"#dd1144")],
    themeRule py".highlight .s2" [under (dot py"highlight") (dot py"s2")] [(py"foreground_colour", .str py"#dd1144")],
    themeRule py".highlight .se" [under (dot py"highlight") (dot py"se")] [(py"foreground_colour", .str py"#dd1144")],
    themeRule py".highlight .sh" [under (dot py"highlight") (dot py"sh")] [(py"foreground_colour", .str py"#dd1144")],
    themeRule py".highlight .si" [under (dot py"highlight") (dot py"si")] [(py"foreground_colour", .str py"#dd1144")],
    themeRule py".highlight .sx" [under (dot py"highlight") (dot py"sx")] [(py"foreground_colour", .str py"#dd1144")],
    themeRule py".highlight .sr" [under (dot py"highlight") (dot py"sr")] [(py"foreground_colour", .str py"#009926")],
    themeRule py".highlight .s1" [under (dot py"highlight") (dot py"s1")] [(py"foreground_colour", .str py"#dd1144")],
    themeRule py".highlight .ss" [under (dot py"highlight") (dot py"ss")] [(py"foreground_colour", .str py"#990073")],
    themeRule py".highlight .bp" [under (dot py"highlight") (dot py"bp")] [(py"foreground_colour", .str py"#999999")],
    themeRule py".highlight .vc" [under (dot py"highlight") (dot py"vc")] [(py"foreground_colour", .str py"#008080")],
    themeRule py".highlight .vg" [under (dot py"highlight") (dot py"vg")] [(py"foreground_colour", .str py"#008080")],
    themeRule py".highlight .vi" [under (dot py"highlight") (dot py"vi")] [(py"foreground_colour", .str py"#008080")],
    themeRule py".highlight .il" [under (dot py"highlight") (dot py"il")] [(py"foreground_colour", .str py"#009999")],
    themeRule py".highlight .gc" [under (dot py"highlight") (dot py"gc")]
      [(py"foreground_colour", .str py"#999"), (py"background-colour", .str py"#EAF2F5")] ]

/-- `code_themes/iced_gopher.py` 7-70. -/
def icedGopherTheme : List Rule :=
  [
    themeRule py".hll" [dot py"hll"] [(py"background_colour", .str py"red")],
    themeRule py".c" [dot py"c"] [(py"foreground_colour", .str py"bright_black")],
    themeRule py".err" [dot py"err"]
      [(py"foreground_colour", .str py"bright_white"), (py"background_colour", .str py"red")],
    themeRule py".k" [dot py"k"] [(py"foreground_colour", .str py"bright_magenta")],
    themeRule py".l" [dot py"l"] [(py"foreground_colour", .str py"bright_blue")],
    themeRule py".o" [dot py"o"] [(py"foreground_colour", .str py"bright_magenta")],
    themeRule py".cm" [dot py"cm"] [(py"foreground_colour", .str py"bright_black")],
    themeRule py".cp" [dot py"cp"] [(py"foreground_colour", .str py"bright_black")],
    themeRule py".c1" [dot py"c1"] [(py"foreground_colour", .str py"bright_black")],
    themeRule py".cs" [dot py"cs"] [(py"foreground_colour", .str py"bright_black")],
    themeRule py".ge" [dot py"ge"] [(py"italic", .bool true)],
    themeRule py".gs" [dot py"gs"] [(py"bold", .bool true)],
    themeRule py".kc" [dot py"kc"] [(py"foreground_colour", .str py"bright_magenta")],
    themeRule py".kd" [dot py"kd"] [(py"foreground_colour", .str py"bright_magenta")],
    themeRule py".kn" [dot py"kn"] [(py"foreground_colour", .str py"bright_magenta")],
    themeRule py".kp" [dot py"kp"] [(py"foreground_colour", .str py"bright_magenta")],
    themeRule py".kr" [dot py"kr"] [(py"foreground_colour", .str py"bright_magenta")],
    themeRule py".kt" [dot py"kt"] [(py"foreground_colour", .str py"bright_magenta")],
    themeRule py".ld" [dot py"ld"] [(py"foreground_colour", .str py"bright_blue")],
    themeRule py".m" [dot py"m"] [(py"foreground_colour", .str py"bright_blue")],
    themeRule py".s" [dot py"s"] [(py"foreground_colour", .str py"bright_blue")],
    themeRule py".na" [dot py"na"] [(py"foreground_colour", .str py"bright_magenta")],
    themeRule py".nb" [dot py"nb"] [(py"foreground_colour", .str py"bright_magenta")],
    themeRule py".nc" [dot py"nc"] [(py"foreground_colour", .str py"bright_cyan"), (py"bold", .bool true)],
    themeRule py".no" [dot py"no"] [(py"foreground_colour", .str py"bright_magenta")],
    themeRule py".nd" [dot py"nd"] [(py"foreground_colour", .str py"cyan"), (py"italic", .bool true)],
    themeRule py".ni" [dot py"ni"] [(py"foreground_colour", .str py"bright_magenta")],
    themeRule py".ne" [dot py"ne"] [(py"foreground_colour", .str py"bright_magenta")],
    themeRule py".nf" [dot py"nf"] [(py"foreground_colour", .str py"bright_cyan")],
    themeRule py".nl" [dot py"nl"] [(py"foreground_colour", .str py"bright_magenta")],
    themeRule py".nn" [dot py"nn"] [(py"foreground_colour", .str py"bright_magenta")],
    themeRule py".nx" [dot py"nx"] [(py"foreground_colour", .str py"bright_magenta")],
    themeRule py".py" [dot py"py"] [(py"foreground_colour", .str py"bright_magenta")],
    themeRule py".nt" [dot py"nt"] [(py"foreground_colour", .str py"bright_magenta")],
    themeRule py".nv" [dot py"nv"] [(py"foreground_colour", .str py"bright_magenta")],
    themeRule py".ow" [dot py"ow"] [(py"foreground_colour", .str py"bright_magenta")],
    themeRule py".mf" [dot py"mf"] [(py"foreground_colour", .str py"bright_blue")],
    themeRule py".mh" [dot py"mh"] [(py"foreground_colour", .str py"bright_blue")],
    themeRule py".mi" [dot py"mi"] [(py"foreground_colour", .str py"bright_blue")],
    themeRule py".mo" [dot py"mo"] [(py"foreground_colour", .str py"bright_blue")],
    themeRule py".sb" [dot py"sb"] [(py"foreground_colour", .str py"bright_blue")],
    themeRule py".sc" [dot py"sc"] [(py"foreground_colour", .str py"bright_blue")],
    themeRule py".sd" [dot py"sd"] [(py"foreground_colour", .str py"bright_blue")],
    themeRule py".s2" [dot py"s2"] [(py"foreground_colour", .str py"bright_blue")],
    themeRule py".se" [dot py"se"] [(py"foreground_colour", .str py"blue")],
    themeRule py".sh" [dot py"sh"] [(py"foreground_colour", .str py"bright_blue")],
    themeRule py".si" [dot py"si"] [(py"foreground_colour", .str py"bright_blue")],
    themeRule py".sx" [dot py"sx"] [(py"foreground_colour", .str py"bright_blue")],
    themeRule py".sr" [dot py"sr"] [(py"foreground_colour", .str py"bright_blue")],
    themeRule py".s1" [dot py"s1"] [(py"foreground_colour", .str py"bright_blue")],
    themeRule py".ss" [dot py"ss"] [(py"foreground_colour", .str py"bright_blue")],
    themeRule py".bp" [dot py"bp"] [(py"foreground_colour", .str py"bright_magenta")],
    themeRule py".vc" [dot py"vc"] [(py"foreground_colour", .str py"bright_magenta")],
    themeRule py".vg" [dot py"vg"] [(py"foreground_colour", .str py"bright_magenta")],
    themeRule py".vi" [dot py"vi"] [(py"foreground_colour", .str py"bright_magenta")],
    themeRule py".il" [dot py"il"] [(py"foreground_colour", .str py"bright_blue")],
    themeRule py".gd" [dot py"gd"] [(py"foreground_colour", .str py"red")],
    themeRule py".gi" [dot py"gi"] [(py"foreground_colour", .str py"green")] ]

/-- `code_themes/monokai.py` 15-78. -/
def monokaiTheme : List Rule :=
  [
    themeRule py".hll" [dot py"hll"] [(py"background_colour", .str py"#49483e")],
    themeRule py".c" [dot py"c"] [(py"foreground_colour", .str py"#75715e")],
    themeRule py".err" [dot py"err"]
      [(py"foreground_colour", .str py"#960050"), (py"background_colour", .str py"#1e0010")],
    themeRule py".k" [dot py"k"] [(py"foreground_colour", .str py"#66d9ef")],
    themeRule py".l" [dot py"l"] [(py"foreground_colour", .str py"#ae81ff")],
    themeRule py".n" [dot py"n"] [(py"foreground_colour", .str py"#f8f8f2")],
    themeRule py".o" [dot py"o"] [(py"foreground_colour", .str py"#f92672")],
    themeRule py".p" [dot py"p"] [(py"foreground_colour", .str py"#f8f8f2")],
    themeRule py".cm" [dot py"cm"] [(py"foreground_colour", .str py"#75715e")],
    themeRule py".cp" [dot py"cp"] [(py"foreground_colour", .str py"#75715e")],
    themeRule py".c1" [dot py"c1"] [(py"foreground_colour", .str py"#75715e")],
    themeRule py".cs" [dot py"cs"] [(py"foreground_colour", .str py"#75715e")],
    themeRule py".ge" [dot py"ge"] [(py"italic", .bool true)],
    themeRule py".gs" [dot py"gs"] [(py"bold", .bool true)],
    themeRule py".kc" [dot py"kc"] [(py"foreground_colour", .str py"#66d9ef")],
    themeRule py".kd" [dot py"kd"] [(py"foreground_colour", .str py"#66d9ef")],
    themeRule py".kn" [dot py"kn"] [(py"foreground_colour", .str py"#f92672")],
    themeRule py".kp" [dot py"kp"] [(py"foreground_colour", .str py"#66d9ef")],
    themeRule py".kr" [dot py"kr"] [(py"foreground_colour", .str py"#66d9ef")],
    themeRule py".kt" [dot py"kt"] [(py"foreground_colour", .str py"#66d9ef")],
    themeRule py".ld" [dot py"ld"] [(py"foreground_colour", .str py"#e6db74")],
    themeRule py".m" [dot py"m"] [(py"foreground_colour", .str py"#ae81ff")],
    themeRule py".s" [dot py"s"] [(py"foreground_colour", .str py"#e6db74")],
    themeRule py".na" [dot py"na"] [(py"foreground_colour", .str py"#a6e22e")],
    themeRule py".nb" [dot py"nb"] [(py"foreground_colour", .str py"#f8f8f2")],
    themeRule py".nc" [dot py"nc"] [(py"foreground_colour", .str py"#a6e22e")],
    themeRule py".no" [dot py"no"] [(py"foreground_colour", .str py"#66d9ef")],
    themeRule py".nd" [dot py"nd"] [(py"foreground_colour", .str py"#a6e22e")],
    themeRule py".ni" [dot py"ni"] [(py"foreground_colour", .str py"#f8f8f2")],
    themeRule py".ne" [dot py"ne"] [(py"foreground_colour", .str py"#a6e22e")],
    themeRule py".nf" [dot py"nf"] [(py"foreground_colour", .str py"#a6e22e")],
    themeRule py".nl" [dot py"nl"] [(py"foreground_colour", .str py"#f8f8f2")],
    themeRule py".nn" [dot py"nn"] [(py"foreground_colour", .str py"#f8f8f2")],
    themeRule py".nx" [dot py"nx"] [(py"foreground_colour", .str py"#a6e22e")],
    themeRule py".py" [dot py"py"] [(py"foreground_colour", .str py"#f8f8f2")],
    themeRule py".nt" [dot py"nt"] [(py"foreground_colour", .str py"#f92672")],
    themeRule py".nv" [dot py"nv"] [(py"foreground_colour", .str py"#f8f8f2")],
    themeRule py".ow" [dot py"ow"] [(py"foreground_colour", .str py"#f92672")],
    themeRule py".w" [dot py"w"] [(py"foreground_colour", .str py"#f8f8f2")],
    themeRule py".mf" [dot py"mf"] [(py"foreground_colour", .str py"#ae81ff")],
    themeRule py".mh" [dot py"mh"] [(py"foreground_colour", .str py"#ae81ff")],
    themeRule py".mi" [dot py"mi"] [(py"foreground_colour", .str py"#ae81ff")],
    themeRule py".mo" [dot py"mo"] [(py"foreground_colour", .str py"#ae81ff")],
    themeRule py".sb" [dot py"sb"] [(py"foreground_colour", .str py"#e6db74")],
    themeRule py".sc" [dot py"sc"] [(py"foreground_colour", .str py"#e6db74")],
    themeRule py".sd" [dot py"sd"] [(py"foreground_colour", .str py"#e6db74")],
    themeRule py".s2" [dot py"s2"] [(py"foreground_colour", .str py"#e6db74")],
    themeRule py".se" [dot py"se"] [(py"foreground_colour", .str py"#ae81ff")],
    themeRule py".sh" [dot py"sh"] [(py"foreground_colour", .str py"#e6db74")],
    themeRule py".si" [dot py"si"] [(py"foreground_colour", .str py"#e6db74")],
    themeRule py".sx" [dot py"sx"] [(py"foreground_colour", .str py"#e6db74")],
    themeRule py".sr" [dot py"sr"] [(py"foreground_colour", .str py"#e6db74")],
    themeRule py".s1" [dot py"s1"] [(py"foreground_colour", .str py"#e6db74")],
    themeRule py".ss" [dot py"ss"] [(py"foreground_colour", .str py"#e6db74")],
    themeRule py".bp" [dot py"bp"] [(py"foreground_colour", .str py"#f8f8f2")],
    themeRule py".vc" [dot py"vc"] [(py"foreground_colour", .str py"#f8f8f2")],
    themeRule py".vg" [dot py"vg"] [(py"foreground_colour", .str py"#f8f8f2")],
    themeRule py".vi" [dot py"vi"] [(py"foreground_colour", .str py"#f8f8f2")],
    themeRule py".il" [dot py"il"] [(py"foreground_colour", .str py"#ae81ff")],
    themeRule py".gu" [dot py"gu"] [(py"foreground_colour", .str py"#75715e")],
    themeRule py".gd" [dot py"gd"] [(py"foreground_colour", .str py"#f92672")],
    themeRule py".gi" [dot py"gi"] [(py"foreground_colour", .str py"#a6e22e")] ]

/-- `code_themes/monokai_ansi.py` 6-71. -/
def monokaiAnsiTheme : List Rule :=
  [
    themeRule py".hll" [dot py"hll"] [(py"background_colour", .str py"#49483e")],
    themeRule py".c" [dot py"c"] [(py"foreground_colour", .str py"bright_black")],
    themeRule py".err" [dot py"err"]
      [(py"foreground_colour", .str py"bright_white"), (py"background_colour", .str py"red")],
    themeRule py".k" [dot py"k"] [(py"foreground_colour", .str py"bright_cyan")],
    themeRule py".l" [dot py"l"] [(py"foreground_colour", .str py"bright_magenta")],
    themeRule py".o" [dot py"o"] [(py"foreground_colour", .str py"red")],
    themeRule py".cm" [dot py"cm"] [(py"foreground_colour", .str py"bright_black")],
    themeRule py".cp" [dot py"cp"] [(py"foreground_colour", .str py"bright_black")],
    themeRule py".c1" [dot py"c1"] [(py"foreground_colour", .str py"bright_black")],
    themeRule py".cs" [dot py"cs"] [(py"foreground_colour", .str py"bright_black")],
    themeRule py".ge" [dot py"ge"] [(py"italic", .bool true)],
    themeRule py".gs" [dot py"gs"] [(py"bold", .bool true)],
    themeRule py".kc" [dot py"kc"] [(py"foreground_colour", .str py"bright_cyan")],
    themeRule py".kd" [dot py"kd"] [(py"foreground_colour", .str py"bright_cyan")],
    themeRule py".kn" [dot py"kn"] [(py"foreground_colour", .str py"red")],
    themeRule py".kp" [dot py"kp"] [(py"foreground_colour", .str py"bright_cyan")],
    themeRule py".kr" [dot py"kr"] [(py"foreground_colour", .str py"bright_cyan")],
    themeRule py".kt" [dot py"kt"] [(py"foreground_colour", .str py"bright_cyan")],
    themeRule py".ld" [dot py"ld"] [(py"foreground_colour", .str py"yellow")],
    themeRule py".m" [dot py"m"] [(py"foreground_colour", .str py"bright_magenta")],
    themeRule py".s" [dot py"s"] [(py"foreground_colour", .str py"yellow")],
    themeRule py".na" [dot py"na"] [(py"foreground_colour", .str py"bright_green")],
    themeRule py".nc" [dot py"nc"] [(py"foreground_colour", .str py"bright_green")],
    themeRule py".no" [dot py"no"] [(py"foreground_colour", .str py"bright_cyan")],
    themeRule py".nd" [dot py"nd"] [(py"foreground_colour", .str py"bright_green")],
    themeRule py".ne" [dot py"ne"] [(py"foreground_colour", .str py"bright_green")],
    themeRule py".nf" [dot py"nf"] [(py"foreground_colour", .str py"bright_green")],
    themeRule py".nx" [dot py"nx"] [(py"foreground_colour", .str py"bright_green")],
    themeRule py".nt" [dot py"nt"] [(py"foreground_colour", .str py"red")],
    themeRule py".ow" [dot py"ow"] [(py"foreground_colour", .str py"red")],
    themeRule py".mf" [dot py"mf"] [(py"foreground_colour", .str py"bright_magenta")],
    themeRule py".mh" [dot py"mh"] [(py"foreground_colour", .str py"bright_magenta")],
    themeRule py".mi" [dot py"mi"] [(py"foreground_colour", .str py"bright_magenta")],
    themeRule py".mo" [dot py"mo"] [(py"foreground_colour", .str py"bright_magenta")],
    themeRule py".sb" [dot py"sb"] [(py"foreground_colour", .str py"yellow")],
    themeRule py".sc" [dot py"sc"] [(py"foreground_colour", .str py"yellow")],
    themeRule py".sd" [dot py"sd"] [(py"foreground_colour", .str py"yellow")],
    themeRule py".s2" [dot py"s2"] [(py"foreground_colour", .str py"yellow")],
    themeRule py".se" [dot py"se"] [(py"foreground_colour", .str py"bright_magenta")],
    themeRule py".sh" [dot py"sh"] [(py"foreground_colour", .str py"yellow")],
    themeRule py".si" [dot py"si"] [(py"foreground_colour", .str py"yellow")],
    themeRule py".sx" [dot py"sx"] [(py"foreground_colour", .str py"yellow")],
    themeRule py".sr" [dot py"sr"] [(py"foreground_colour", .str py"yellow")],
    themeRule py".s1" [dot py"s1"] [(py"foreground_colour", .str py"yellow")],
    themeRule py".ss" [dot py"ss"] [(py"foreground_colour", .str py"yellow")],
    themeRule py".il" [dot py"il"] [(py"foreground_colour", .str py"bright_magenta")],
    themeRule py".gu" [dot py"gu"] [(py"foreground_colour", .str py"bright_black")],
    themeRule py".gd" [dot py"gd"] [(py"foreground_colour", .str py"red")],
    themeRule py".gi" [dot py"gi"] [(py"foreground_colour", .str py"bright_green")] ]

/-- `code_themes/tomorrow.py` 15-80. -/
def tomorrowTheme : List Rule :=
  [
    themeRule py".hll" [dot py"hll"] [(py"background_colour", .str py"#d6d6d6")],
    themeRule py".c" [dot py"c"] [(py"foreground_colour", .str py"#8e908c")],
    themeRule py".err" [dot py"err"] [(py"foreground_colour", .str py"#c82829")],
    themeRule py".k" [dot py"k"] [(py"foreground_colour", .str py"#8959a8")],
    themeRule py".l" [dot py"l"] [(py"foreground_colour", .str py"#f5871f")],
    themeRule py".n" [dot py"n"] [(py"foreground_colour", .str py"#4d4d4c")],
    themeRule py".o" [dot py"o"] [(py"foreground_colour", .str py"#3e999f")],
    themeRule py".p" [dot py"p"] [(py"foreground_colour", .str py"#4d4d4c")],
    themeRule py".cm" [dot py"cm"] [(py"foreground_colour", .str py"#8e908c")],
    themeRule py".cp" [dot py"cp"] [(py"foreground_colour", .str py"#8e908c")],
    themeRule py".c1" [dot py"c1"] [(py"foreground_colour", .str py"#8e908c")],
    themeRule py".cs" [dot py"cs"] [(py"foreground_colour", .str py"#8e908c")],
    themeRule py".gd" [dot py"gd"] [(py"foreground_colour", .str py"#c82829")],
    themeRule py".ge" [dot py"ge"] [(py"italic", .bool true)],
    themeRule py".gh" [dot py"gh"] [(py"foreground_colour", .str py"#4d4d4c"), (py"bold", .bool true)],
    themeRule py".gi" [dot py"gi"] [(py"foreground_colour", .str py"#718c00")],
    themeRule py".gp" [dot py"gp"] [(py"foreground_colour", .str py"#8e908c"), (py"bold", .bool true)],
    themeRule py".gs" [dot py"gs"] [(py"bold", .bool true)],
    themeRule py".gu" [dot py"gu"] [(py"foreground_colour", .str py"#3e999f"), (py"bold", .bool true)],
    themeRule py".kc" [dot py"kc"] [(py"foreground_colour", .str py"#8959a8")],
    themeRule py".kd" [dot py"kd"] [(py"foreground_colour", .str py"#8959a8")],
    themeRule py".kn" [dot py"kn"] [(py"foreground_colour", .str py"#3e999f")],
    themeRule py".kp" [dot py"kp"] [(py"foreground_colour", .str py"#8959a8")],
    themeRule py".kr" [dot py"kr"] [(py"foreground_colour", .str py"#8959a8")],
    themeRule py".kt" [dot py"kt"] [(py"foreground_colour", .str py"#eab700")],
    themeRule py".ld" [dot py"ld"] [(py"foreground_colour", .str py"#718c00")],
    themeRule py".m" [dot py"m"] [(py"foreground_colour", .str py"#f5871f")],
    themeRule py".s" [dot py"s"] [(py"foreground_colour", .str py"#718c00")],
    themeRule py".na" [dot py"na"] [(py"foreground_colour", .str py"#4271ae")],
    themeRule py".nb" [dot py"nb"] [(py"foreground_colour", .str py"#4d4d4c")],
    themeRule py".nc" [dot py"nc"] [(py"foreground_colour", .str py"#eab700")],
    themeRule py".no" [dot py"no"] [(py"foreground_colour", .str py"#c82829")],
    themeRule py".nd" [dot py"nd"] [(py"foreground_colour", .str py"#3e999f")],
    themeRule py".ni" [dot py"ni"] [(py"foreground_colour", .str py"#4d4d4c")],
    themeRule py".ne" [dot py"ne"] [(py"foreground_colour", .str py"#c82829")],
    themeRule py".nf" [dot py"nf"] [(py"foreground_colour", .str py"#4271ae")],
    themeRule py".nl" [dot py"nl"] [(py"foreground_colour", .str py"#4d4d4c")],
    themeRule py".nn" [dot py"nn"] [(py"foreground_colour", .str py"#eab700")],
    themeRule py".nx" [dot py"nx"] [(py"foreground_colour", .str py"#4271ae")],
    themeRule py".py" [dot py"py"] [(py"foreground_colour", .str py"#4d4d4c")],
    themeRule py".nt" [dot py"nt"] [(py"foreground_colour", .str py"#3e999f")],
    themeRule py".nv" [dot py"nv"] [(py"foreground_colour", .str py"#c82829")],
    themeRule py".ow" [dot py"ow"] [(py"foreground_colour", .str py"#3e999f")],
    themeRule py".w" [dot py"w"] [(py"foreground_colour", .str py"#4d4d4c")],
    themeRule py".mf" [dot py"mf"] [(py"foreground_colour", .str py"#f5871f")],
    themeRule py".mh" [dot py"mh"] [(py"foreground_colour", .str py"#f5871f")],
    themeRule py".mi" [dot py"mi"] [(py"foreground_colour", .str py"#f5871f")],
    themeRule py".mo" [dot py"mo"] [(py"foreground_colour", .str py"#f5871f")],
    themeRule py".sb" [dot py"sb"] [(py"foreground_colour", .str py"#718c00")],
    themeRule py".sc" [dot py"sc"] [(py"foreground_colour", .str py"#4d4d4c")],
    themeRule py".sd" [dot py"sd"] [(py"foreground_colour", .str py"#8e908c")],
    themeRule py".s2" [dot py"s2"] [(py"foreground_colour", .str py"#718c00")],
    themeRule py".se" [dot py"se"] [(py"foreground_colour", .str py"#f5871f")],
    themeRule py".sh" [dot py"sh"] [(py"foreground_colour", .str py"#718c00")],
    themeRule py".si" [dot py"si"] [(py"foreground_colour", .str py"#f5871f")],
    themeRule py".sx" [dot py"sx"] [(py"foreground_colour", .str py"#718c00")],
    themeRule py".sr" [dot py"sr"] [(py"foreground_colour", .str py"#718c00")],
    themeRule py".s1" [dot py"s1"] [(py"foreground_colour", .str py"#718c00")],
    themeRule py".ss" [dot py"ss"] [(py"foreground_colour", .str py"#718c00")],
    themeRule py".bp" [dot py"bp"] [(py"foreground_colour", .str py"#4d4d4c")],
    themeRule py".vc" [dot py"vc"] [(py"foreground_colour", .str py"#c82829")],
    themeRule py".vg" [dot py"vg"] [(py"foreground_colour", .str py"#c82829")],
    themeRule py".vi" [dot py"vi"] [(py"foreground_colour", .str py"#c82829")],
    themeRule py".il" [dot py"il"] [(py"foreground_colour", .str py"#f5871f")] ]

/-- `code_themes/tomorrow_night.py` 15-80. -/
def tomorrowNightTheme : List Rule :=
  [
    themeRule py".hll" [dot py"hll"] [(py"background_colour", .str py"#373b41")],
    themeRule py".c" [dot py"c"] [(py"foreground_colour", .str py"#969896")],
    themeRule py".err" [dot py"err"] [(py"foreground_colour", .str py"#cc6666")],
    themeRule py".k" [dot py"k"] [(py"foreground_colour", .str py"#b294bb")],
    themeRule py".l" [dot py"l"] [(py"foreground_colour", .str py"#de935f")],
    themeRule py".n" [dot py"n"] [(py"foreground_colour", .str py"#c5c8c6")],
    themeRule py".o" [dot py"o"] [(py"foreground_colour", .str py"#8abeb7")],
    themeRule py".p" [dot py"p"] [(py"foreground_colour", .str py"#c5c8c6")],
    themeRule py".cm" [dot py"cm"] [(py"foreground_colour", .str py"#969896")],
    themeRule py".cp" [dot py"cp"] [(py"foreground_colour", .str py"#969896")],
    themeRule py".c1" [dot py"c1"] [(py"foreground_colour", .str py"#969896")],
    themeRule py".cs" [dot py"cs"] [(py"foreground_colour", .str py"#969896")],
    themeRule py".gd" [dot py"gd"] [(py"foreground_colour", .str py"#cc6666")],
    themeRule py".ge" [dot py"ge"] [(py"italic", .bool true)],
    themeRule py".gh" [dot py"gh"] [(py"foreground_colour", .str py"#c5c8c6"), (py"bold", .bool true)],
    themeRule py".gi" [dot py"gi"] [(py"foreground_colour", .str py"#b5bd68")],
    themeRule py".gp" [dot py"gp"] [(py"foreground_colour", .str py"#969896"), (py"bold", .bool true)],
    themeRule py".gs" [dot py"gs"] [(py"bold", .bool true)],
    themeRule py".gu" [dot py"gu"] [(py"foreground_colour", .str py"#8abeb7"), (py"bold", .bool true)],
    themeRule py".kc" [dot py"kc"] [(py"foreground_colour", .str py"#b294bb")],
    themeRule py".kd" [dot py"kd"] [(py"foreground_colour", .str py"#b294bb")],
    themeRule py".kn" [dot py"kn"] [(py"foreground_colour", .str py"#8abeb7")],
    themeRule py".kp" [dot py"kp"] [(py"foreground_colour", .str py"#b294bb")],
    themeRule py".kr" [dot py"kr"] [(py"foreground_colour", .str py"#b294bb")],
    themeRule py".kt" [dot py"kt"] [(py"foreground_colour", .str py"#f0c674")],
    themeRule py".ld" [dot py"ld"] [(py"foreground_colour", .str py"#b5bd68")],
    themeRule py".m" [dot py"m"] [(py"foreground_colour", .str py"#de935f")],
    themeRule py".s" [dot py"s"] [(py"foreground_colour", .str py"#b5bd68")],
    themeRule py".na" [dot py"na"] [(py"foreground_colour", .str py"#81a2be")],
    themeRule py".nb" [dot py"nb"] [(py"foreground_colour", .str py"#c5c8c6")],
    themeRule py".nc" [dot py"nc"] [(py"foreground_colour", .str py"#f0c674")],
    themeRule py".no" [dot py"no"] [(py"foreground_colour", .str py"#cc6666")],
    themeRule py".nd" [dot py"nd"] [(py"foreground_colour", .str py"#8abeb7")],
    themeRule py".ni" [dot py"ni"] [(py"foreground_colour", .str py"#c5c8c6")],
    themeRule py".ne" [dot py"ne"] [(py"foreground_colour", .str py"#cc6666")],
    themeRule py".nf" [dot py"nf"] [(py"foreground_colour", .str py"#81a2be")],
    themeRule py".nl" [dot py"nl"] [(py"foreground_colour", .str py"#c5c8c6")],
    themeRule py".nn" [dot py"nn"] [(py"foreground_colour", .str py"#f0c674")],
    themeRule py".nx" [dot py"nx"] [(py"foreground_colour", .str py"#81a2be")],
    themeRule py".py" [dot py"py"] [(py"foreground_colour", .str py"#c5c8c6")],
    themeRule py".nt" [dot py"nt"] [(py"foreground_colour", .str py"#8abeb7")],
    themeRule py".nv" [dot py"nv"] [(py"foreground_colour", .str py"#cc6666")],
    themeRule py".ow" [dot py"ow"] [(py"foreground_colour", .str py"#8abeb7")],
    themeRule py".w" [dot py"w"] [(py"foreground_colour", .str py"#c5c8c6")],
    themeRule py".mf" [dot py"mf"] [(py"foreground_colour", .str py"#de935f")],
    themeRule py".mh" [dot py"mh"] [(py"foreground_colour", .str py"#de935f")],
    themeRule py".mi" [dot py"mi"] [(py"foreground_colour", .str py"#de935f")],
    themeRule py".mo" [dot py"mo"] [(py"foreground_colour", .str py"#de935f")],
    themeRule py".sb" [dot py"sb"] [(py"foreground_colour", .str py"#b5bd68")],
    themeRule py".sc" [dot py"sc"] [(py"foreground_colour", .str py"#c5c8c6")],
    themeRule py".sd" [dot py"sd"] [(py"foreground_colour", .str py"#969896")],
    themeRule py".s2" [dot py"s2"] [(py"foreground_colour", .str py"#b5bd68")],
    themeRule py".se" [dot py"se"] [(py"foreground_colour", .str py"#de935f")],
    themeRule py".sh" [dot py"sh"] [(py"foreground_colour", .str py"#b5bd68")],
    themeRule py".si" [dot py"si"] [(py"foreground_colour", .str py"#de935f")],
    themeRule py".sx" [dot py"sx"] [(py"foreground_colour", .str py"#b5bd68")],
    themeRule py".sr" [dot py"sr"] [(py"foreground_colour", .str py"#b5bd68")],
    themeRule py".s1" [dot py"s1"] [(py"foreground_colour", .str py"#b5bd68")],
    themeRule py".ss" [dot py"ss"] [(py"foreground_colour", .str py"#b5bd68")],
    themeRule py".bp" [dot py"bp"] [(py"foreground_colour", .str py"#c5c8c6")],
    themeRule py".vc" [dot py"vc"] [(py"foreground_colour", .str py"#cc6666")],
    themeRule py".vg" [dot py"vg"] [(py"foreground_colour", .str py"#cc6666")],
    themeRule py".vi" [dot py"vi"] [(py"foreground_colour", .str py"#cc6666")],
    themeRule py".il" [dot py"il"] [(py"foreground_colour", .str py"#de935f")] ]

/-- The themes that come with the package. -/
def bundledThemes : List (List Rule) :=
  [autumnTheme, darklyTheme, darklyAnsiTheme, githubTheme, icedGopherTheme, monokaiTheme, monokaiAnsiTheme, tomorrowTheme, tomorrowNightTheme]

end Verif
