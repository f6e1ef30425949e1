import Verif.Py.Basic
import Verif.Py.Str
import Verif.Py.Format
import Verif.Model.TextWrap
import Verif.Py.Dict
import Verif.Model.Box
import Verif.Model.Justify
import Verif.Model.Dom
import Verif.Model.Selectors
import Verif.Model.Renderers
import Verif.Model.Links
import Verif.Model.Cascade
import Verif.Model.Parser
import Verif.Spec.Cascade
import Verif.Proofs.Dict
import Verif.Proofs.Cascade
import Verif.Proofs.RuleTable
import Verif.Props.Cascade
import Verif.Props.Handed
import Verif.Spec.Tree
import Verif.Proofs.Tree
import Verif.Proofs.Parse
import Verif.Props.Tree
import Verif.Spec.Css
import Verif.Proofs.Str
import Verif.Proofs.Selectors
import Verif.Props.Selectors
import Verif.Spec.Wrap
import Verif.Proofs.Wrap
import Verif.Proofs.WrapText
import Verif.Proofs.WrapLoop
import Verif.Props.Wrap
import Verif.Spec.Text
import Verif.Proofs.Lines
import Verif.Props.Text
import Verif.Spec.Parser
import Verif.Proofs.Links
import Verif.Proofs.Assign
import Verif.Proofs.Splitlines
import Verif.Proofs.Close
import Verif.Props.Parser
import Verif.Model.Namedict
import Verif.Spec.Settings
import Verif.Props.Settings
import Verif.Spec.Box
import Verif.Props.Box
import Verif.Spec.Justify
import Verif.Props.Justify
import Verif.Props.Format
import Verif.Spec.Style
import Verif.Proofs.Style
import Verif.Props.Style
import Verif.Spec.Render
import Verif.Proofs.Render
import Verif.Props.Inline
import Verif.Spec.Blocks
import Verif.Proofs.Blocks
import Verif.Proofs.WrapChars
import Verif.Props.Blocks
import Verif.Props.Items
import Verif.Spec.Ansi
import Verif.Props.Ansi
import Verif.Spec.Links
import Verif.Spec.Footer
import Verif.Props.Links
import Verif.Proofs.LinkTargets
import Verif.Props.LinkLines
import Verif.Props.LinkSettings
import Verif.Proofs.Finish
import Verif.Proofs.Good
import Verif.Props.Finish
import Verif.Spec.Overhang
import Verif.Props.Overhang
import Verif.Spec.Keep
import Verif.Spec.Layout
import Verif.Spec.LayoutText
import Verif.Props.Layout
import Verif.Props.LayoutText
import Verif.Proofs.Keep
import Verif.Props.Keep
import Verif.Spec.Fit
import Verif.Proofs.Fit
import Verif.Props.Refs
import Verif.Props.Fit
import Verif.Spec.Sentence
import Verif.Proofs.Sentence
import Verif.Props.Sentence
import Verif.Spec.Nested
import Verif.Spec.Page
import Verif.Spec.PageFit
import Verif.Proofs.Gap
import Verif.Proofs.Nested
import Verif.Props.Nested
import Verif.Model.Themes
import Verif.Spec.Theme
import Verif.Proofs.Theme
import Verif.Props.Theme
import Verif.Spec.Prose
import Verif.Proofs.Prose
import Verif.Props.Prose
import Verif.Spec.Room
import Verif.Proofs.Room
import Verif.Proofs.RoomTree
import Verif.Spec.Accept
import Verif.Props.Accept
import Verif.Props.Room
import Verif.Model.Tokenizer
import Verif.Proofs.Tokenizer
import Verif.Proofs.TokenizerSafe
import Verif.Spec.Source
import Verif.Proofs.Source
import Verif.Proofs.SourceTags
import Verif.Proofs.SourceDoc
import Verif.Proofs.SourcePieces
import Verif.Props.Source
import Verif.Props.Reset
import Verif.Model.CssParse
import Verif.Model.Tables
import Verif.Spec.CssText
import Verif.Proofs.CssLex
import Verif.Proofs.CssWords
import Verif.Proofs.CssPieces
import Verif.Proofs.CssTrees
import Verif.Proofs.CssGroups
import Verif.Proofs.CssTotal
import Verif.Proofs.Tables
import Verif.Props.CssText
import Verif.Props.Width
import Verif.Props.Footer
import Verif.Props.FitFooter
import Verif.Props.Page
import Verif.Props.PageFit
import Verif.Model.Cli
import Verif.Spec.Cli
import Verif.Props.Cli
import Verif.Tests.Html
import Verif.Tests.Namedict
import Verif.Tests.Selectors
import Verif.Tests.Use
import Verif.Tests.UseLinks
import Verif.Tests.UseLooks
import Verif.Tests.UsePage
import Verif.Tests.UseText
import Verif.Tests.UseTree
import Verif.Spec.Looks
import Verif.Props.Looks
import Verif.Spec.LooksText
import Verif.Props.LooksText
import Verif.Props.TemplateRoom
import Verif.Props.SentenceDoc
import Verif.Props.LooksFrame
import Verif.Model.Args
import Verif.Spec.Args
import Verif.Proofs.Args
import Verif.Props.Args
import Verif.Spec.Alike
import Verif.Proofs.Alike
import Verif.Props.Alike
import Verif.Proofs.Continued
import Verif.Props.Continued
import Verif.Spec.Cut
import Verif.Props.Cut
import Verif.Model.Formatter
import Verif.Props.Formatter
import Verif.Spec.Spacing
import Verif.Props.Spacing
import Verif.Spec.TreePage
import Verif.Proofs.TreePage
import Verif.Props.TreePage
import Verif.Spec.Tidy
import Verif.Props.Tidy
import Verif.Props.OnlyBlocks
import Verif.Props.Wrapper
import Verif.Spec.Cuts
import Verif.Props.Cuts
import Verif.Spec.Mend
import Verif.Proofs.Closed
import Verif.Proofs.Mend
import Verif.Props.Mend
import Verif.Spec.Parts
import Verif.Props.Parts
import Verif.Spec.Fewest
import Verif.Props.Fewest
import Verif.Spec.Rules
import Verif.Props.Rules
import Verif.Spec.Group
import Verif.Proofs.SameDict
import Verif.Proofs.SameTable
import Verif.Props.Group
import Verif.Spec.Known
import Verif.Proofs.Known
import Verif.Proofs.KnownTable
import Verif.Props.Known
import Verif.Spec.Wider
import Verif.Props.Wider
import Verif.Spec.Chars
import Verif.Props.Chars
import Verif.Spec.Pieces
import Verif.Props.Pieces
import Verif.Spec.Long
import Verif.Props.Long
import Verif.Spec.Numbers
import Verif.Props.Numbers
import Verif.Spec.Endless
import Verif.Props.Endless
import Verif.Spec.NumberStyle
import Verif.Props.NumberStyle
import Verif.Spec.Fields
import Verif.Props.Fields
