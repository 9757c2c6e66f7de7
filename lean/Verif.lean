import Verif.Model.Sample
import Verif.Props.Types
import Verif.Props.Closure
import Verif.Props.State
import Verif.Props.Eval
import Verif.Props.Built
import Verif.Props.Calls
import Verif.Props.Names
import Verif.Props.DecVal
import Verif.Props.Compare
import Verif.Props.Order
import Verif.Props.Collections
import Verif.Props.DecRound
import Verif.Props.Arith
import Verif.Props.Bits
import Verif.Props.Seqs
import Verif.Props.Times
import Verif.Props.RuleApi
import Verif.Props.Text
import Verif.Props.BuiltinFns
import Verif.Props.Float64
import Verif.Props.Literals
import Verif.Props.TypeSound
import Verif.Props.Sound
import Verif.Props.SoundAttr
import Verif.Props.SoundCalls
import Verif.Props.Reduced
import Verif.Props.SoundRule
import Verif.Props.Conc
import Verif.Props.Suggest
import Verif.Props.Scope
import Verif.Props.Canonical
import Verif.Props.Thread
import Verif.Props.Interp
import Verif.Props.Syntax
import Verif.Props.Parse
import Verif.Props.ParseStack
import Verif.Props.ParseSound
import Verif.Props.ParseAll
import Verif.Props.Parens
import Verif.Props.Layout
import Verif.Props.Lex
import Verif.Props.LexHit
import Verif.Props.LexText
import Verif.Props.Spacing
import Verif.Props.ParseText
import Verif.Props.Print
import Verif.Props.Lines
import Verif.Props.Normal
import Verif.Props.Leaks
import Verif.Props.Escape
import Verif.Props.Typed
import Verif.Props.RuleText
import Verif.Props.LiteralText
import Verif.Props.Strings
import Verif.Props.FloatRepr
import Verif.Props.Numbers
import Verif.Props.NumText
import Verif.Props.Hints
import Verif.Props.Compose
import Verif.Props.ComposeMore
import Verif.Props.Laws
import Verif.Props.Locality
import Verif.Props.NameErrors
import Verif.Props.Accept
import Verif.Props.Basics
import Verif.Props.TypeDefs
import Verif.Props.BuiltinsMap
import Verif.Props.ContextInit
import Verif.Props.Regex
import Verif.Props.MapFilter
import Verif.Props.Consts
import Verif.Props.AttrRules
import Verif.Props.ErrorKinds
import Verif.Props.LookupOrder
import Verif.Props.RuleParts
import Verif.Props.RuleLaws
import Verif.Props.RuleCalls
import Verif.Props.RuleComp
import Verif.Props.RuleSwap
import Verif.Model.Reenter
import Verif.Props.Reenter
import Verif.Props.RuleBuiltins
import Verif.Props.WellFormed
import Verif.Model.Graph
import Verif.Props.Graph
import Verif.Model.World
import Verif.Props.World
import Verif.Model.Objects
import Verif.Props.Objects
import Verif.Props.RuleClass
import Verif.Props.Gradual
import Verif.Props.RuleEach
import Verif.Props.Repl
import Verif.Props.Advice
import Verif.Props.Settings
import Verif.Props.SettingsRule
import Verif.Props.Alpha
import Verif.Props.SetOrder
import Verif.Props.SetOrderCalls
import Verif.Props.SetOrderRule
import Verif.Props.SetOrderAny
