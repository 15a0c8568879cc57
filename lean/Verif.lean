import Verif.Span.Props
import Verif.Util.OrderedMapProps
import Verif.Util.JsonCommentsProps
import Verif.Util.ObjectsProps
import Verif.Util.MergeHeap
import Verif.Lexer.BufProps
import Verif.Lexer.ModeProps
import Verif.Lexer.EscapeProps
import Verif.Lexer.StrProps
import Verif.Lexer.Tpl
import Verif.Lexer.CommentProps
import Verif.Lexer.NumProps
import Verif.Lexer.NumValueProps
import Verif.Lexer.PunctProps
import Verif.Lexer.NameProps
import Verif.Lexer.RegexpProps
import Verif.Lexer.JsxProps
import Verif.Parser.AssignProps
import Verif.Parser.PatternProps
import Verif.Parser.PatternResidue
import Verif.Parser.PatternDefault
import Verif.Parser.PostfixProps
import Verif.Parser.SymProps
import Verif.Parser.SymScope
import Verif.Parser.JumpProps
import Verif.Parser.Semi
import Verif.Parser.Export
import Verif.Parser.Feature
import Verif.Walk.Props
import Verif.Exec.Props
import Verif.Exec.Branch
import Verif.Astutil.BuildDep
import Verif.Astutil.Contains
import Verif.Conc.WalkDirOrder
import Verif.Conc.ParseCacheProps
import Verif.Graph.Iter
import Verif.Estree.Loc
import Verif.Estree.Tpl
import Verif.Graph.Cfg
import Verif.Graph.CfgHeap
import Verif.Graph.CfgLink
import Verif.Graph.CfgSeq
import Verif.Graph.CfgPart
import Verif.Graph.CfgOps
import Verif.Graph.CfgWorld
import Verif.Graph.CfgGrp
import Verif.Graph.CfgFork
import Verif.Graph.CfgLoop
import Verif.Graph.CfgLoop2
import Verif.Graph.CfgClose
import Verif.Graph.CfgBuild
import Verif.Graph.CfgHandle
import Verif.Graph.CfgHandle2
import Verif.Graph.CfgHandle3
import Verif.Graph.CfgSem
import Verif.Graph.CfgMain
import Verif.Graph.CfgLive
import Verif.Graph.CfgProps
import Verif.Parser.DeclKindSpec
import Verif.Parser.DeclKind
import Verif.Parser.DeclKindProps
import Verif.Parser.Private
import Verif.Parser.PrivateSpec
import Verif.Parser.PrivateLemmas
import Verif.Parser.PrivateProps
import Verif.Parser.ClassBody
import Verif.Parser.ClassBodySpec
import Verif.Parser.ClassBodyLemmas
import Verif.Parser.ClassBodyProps
import Verif.Lexer.Scan
import Verif.Lexer.ScanSpec
import Verif.Lexer.ScanLemmas
import Verif.Lexer.ScanProps
import Verif.Walk.AstSpec
import Verif.Walk.Access
import Verif.Walk.ReachLemmas
import Verif.Walk.ReachProps
import Verif.Lexer.ModeUse
import Verif.Lexer.ModeUseSpec
import Verif.Lexer.ModeUseLemmas
import Verif.Lexer.ModeUseProps
import Verif.Parser.Directive
import Verif.Parser.DirectiveSpec
import Verif.Parser.DirectiveLemmas
import Verif.Parser.DirectiveProps
import Verif.Estree.Conv
import Verif.Estree.ConvSpec
import Verif.Estree.ConvLemmas
import Verif.Estree.ConvProps
import Verif.Estree.ConvFlags
import Verif.Lexer.Slash
import Verif.Lexer.SlashSpec
import Verif.Lexer.SlashLemmas
import Verif.Lexer.SlashProps
import Verif.Lexer.Alias
import Verif.Lexer.AliasProps
import Verif.Parser.Prog
import Verif.Parser.ProgSpec
import Verif.Parser.ProgWp
import Verif.Parser.ProgAcc
import Verif.Parser.ProgAccT
import Verif.Parser.ProgBal
import Verif.Parser.ProgAccF
import Verif.Parser.ProgAccC
import Verif.Parser.ProgAccM
import Verif.Parser.ProgAccE
import Verif.Parser.ProgAccS
import Verif.Parser.ProgLits
import Verif.Parser.ProgAccounts
import Verif.Parser.ProgPlaceSpec
import Verif.Parser.ProgTr
import Verif.Parser.ProgPlaceE
import Verif.Parser.ProgPlaceS
import Verif.Parser.ProgPlaceL
import Verif.Parser.ProgPlaces
import Verif.Parser.ProgEndsSpec
import Verif.Parser.ProgEndsR
import Verif.Parser.ProgEndsE
import Verif.Parser.ProgEndsS
import Verif.Parser.ProgEnds
import Verif.Parser.JsxProps
import Verif.Parser.Jsx
import Verif.Parser.JsxSpec
import Verif.Parser.JsxLex
import Verif.Parser.JsxTr
import Verif.Parser.JsxSound
import Verif.Parser.JsxComplete
import Verif.Parser.JsxEq
import Verif.Parser.TsType
import Verif.Parser.TsTypeSpec
import Verif.Parser.TsTypeAs
import Verif.Parser.TsTypeTr
import Verif.Parser.TsTypeSound
import Verif.Parser.TsTypeComplete
import Verif.Parser.TsTypeNoPanic
import Verif.Parser.TsTypeProps
import Verif.Parser.Rng
import Verif.Parser.RngSpec
import Verif.Parser.RngWp
import Verif.Parser.RngProof
import Verif.Parser.RngNest
import Verif.Parser.RngProps
import Verif.Parser.Cmts
import Verif.Parser.CmtsSpec
import Verif.Parser.CmtsProof
import Verif.Parser.CmtsProps
import Verif.Parser.Super
import Verif.Parser.SuperSpec
import Verif.Parser.SuperLemmas
import Verif.Parser.SuperProps
import Verif.Parser.Bind
import Verif.Parser.BindLemmas
import Verif.Parser.BindProps
import Verif.Parser.Rets
import Verif.Parser.RetsLemmas
import Verif.Parser.RetsProps
import Verif.Parser.ObjLit
import Verif.Parser.ObjLitSpec
import Verif.Parser.ObjLitLemmas
import Verif.Parser.ObjLitProps
import Verif.Parser.Mods
import Verif.Parser.ModsSpec
import Verif.Parser.ModsLemmas
import Verif.Parser.ModsMain
import Verif.Parser.ModsBlock
import Verif.Parser.ModsProps
import Verif.Parser.Overload
import Verif.Parser.OverloadSpec
import Verif.Parser.OverloadProps
import Verif.Parser.Deco
import Verif.Parser.DecoSpec
import Verif.Parser.DecoProps
import Verif.Parser.Less
import Verif.Parser.LessSpec
import Verif.Parser.LessLemmas
import Verif.Parser.LessGen
import Verif.Parser.LessSound
import Verif.Parser.LessJs
import Verif.Parser.LessAll
import Verif.Parser.LessProps
