import Verif.Props.Types
import Verif.Props.Store
import Verif.Props.Cache
import Verif.Props.Comments
import Verif.Props.Preproc
import Verif.Props.Macro
import Verif.Props.PPExpr
import Verif.Props.Decl
import Verif.Props.Lib
import Verif.Props.Ctypes
import Verif.Props.Call
import Verif.Props.Utils
import Verif.Props.Grammar
import Verif.Model.Eval
import Verif.Spec.Eval
import Verif.Proof.EvalRun
import Verif.Proof.EvalTok
import Verif.Proof.EvalScan
import Verif.Proof.EvalText
import Verif.Props.Eval
import Verif.Props.Source
import Verif.Model.File
import Verif.Proof.File
import Verif.Spec.File
import Verif.Proof.FileRun
import Verif.Proof.FileToks
import Verif.Proof.Adds
import Verif.Props.File
import Verif.Props.FileFrame
import Verif.Props.MacroValue
import Verif.Props.FileCache
import Verif.Spec.Tables
import Verif.Proof.Wf
import Verif.Proof.WfGram
import Verif.Props.Tables
import Verif.Model.Objects
import Verif.Spec.Classes
import Verif.Proof.Objects
import Verif.Proof.ObjNum
import Verif.Proof.ObjWorld
import Verif.Proof.EqB
import Verif.Props.Classes
import Verif.Spec.Scalars
import Verif.Props.Scalars
import Verif.Spec.Calls
import Verif.Proof.Wrap
import Verif.Props.Wrap
import Verif.Spec.Words
import Verif.Model.CtLib
import Verif.Spec.Library
import Verif.Proof.CtFinished
import Verif.Proof.CtLib
import Verif.Proof.LibRight
import Verif.Props.Library
import Verif.Model.Session
import Verif.Spec.Session
import Verif.Proof.SessionArgs
import Verif.Props.Session
import Verif.Model.Result
import Verif.Spec.Result
import Verif.Props.Result
import Verif.Model.Layout
import Verif.Spec.Layout
import Verif.Props.Layout
import Verif.Spec.Prefix
import Verif.Props.Prefix
import Verif.Props.Reload
import Verif.Props.Conformance
import Verif.Proof.Check
import Verif.Props.Checked
import Verif.Proof.GrammarNest
import Verif.Props.GrammarCx
import Verif.Spec.Independent
import Verif.Proof.Independent
import Verif.Proof.EvalLocal
import Verif.Props.Independent
import Verif.Spec.TextWords
import Verif.Proof.GrammarSuf
import Verif.Proof.GrammarNames
import Verif.Proof.GrammarNames2
import Verif.Props.Robust
import Verif.Model.Repr
import Verif.Spec.Repr
import Verif.Proof.Repr
import Verif.Props.Repr
import Verif.Model.Search
import Verif.Spec.Search
import Verif.Props.Search
import Verif.Props.CallAll
import Verif.Spec.IndepText
import Verif.Spec.Reads
import Verif.Proof.IndepText
import Verif.Proof.Reads
import Verif.Props.Reads
import Verif.Props.Alias
import Verif.Props.Literals
import Verif.Props.Load
import Verif.Props.Fill
import Verif.Props.Number
import Verif.Props.Cast
import Verif.Spec.Respace
import Verif.Proof.Respace
import Verif.Proof.RespaceExpr
import Verif.Proof.RespaceDecl
import Verif.Props.Respace
import Verif.Spec.Relaid
import Verif.Proof.Relaid
import Verif.Props.Relaid
import Verif.Spec.Unfold
import Verif.Props.Unfold
import Verif.Model.Tabs
import Verif.Spec.Tabs
import Verif.Proof.Tabs
import Verif.Proof.TabMacro
import Verif.Props.Tabs
import Verif.Props.Dollar
import Verif.Model.Pretty
import Verif.Spec.Pretty
import Verif.Props.Pretty
import Verif.Spec.Bodies
import Verif.Props.Kept
import Verif.Props.Signs
import Verif.Props.RelaidPack
import Verif.Spec.Split
import Verif.Proof.Split
import Verif.Props.Split
import Verif.Proof.SplitPack
import Verif.Props.SplitPack
import Verif.Spec.Dead
import Verif.Props.Dead
import Verif.Proof.DeadPack
import Verif.Props.DeadPack
import Verif.Spec.Chosen
import Verif.Props.Selected
import Verif.Spec.Alike
import Verif.Props.Alike
import Verif.Proof.SelectedPack
import Verif.Props.SelectedPack
import Verif.Spec.Given
import Verif.Props.Given
import Verif.Props.CopyFrom
import Verif.Props.CopyChain
import Verif.Spec.Unread
import Verif.Props.Unread
