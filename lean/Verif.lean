import Verif.Model.Amb
import Verif.Model.AmbEq
import Verif.Model.Arity
import Verif.Model.ArityGeneric
import Verif.Model.AsyncRaise
import Verif.Model.Autocurry
import Verif.Model.Autoref
import Verif.Model.Autoreturn
import Verif.Model.Callsite
import Verif.Model.Client
import Verif.Model.Conditions
import Verif.Model.ConsRepr
import Verif.Model.Containers
import Verif.Model.Control
import Verif.Model.ControlClient
import Verif.Model.Conts
import Verif.Model.Curry
import Verif.Model.CurryAnnotated
import Verif.Model.CurryCompose
import Verif.Model.CurryGeneric
import Verif.Model.CurryLazy
import Verif.Model.CurryWraps
import Verif.Model.Dbg
import Verif.Model.Deco
import Verif.Model.Describe
import Verif.Model.DetectLambda
import Verif.Model.Dispatch
import Verif.Model.DispatchError
import Verif.Model.DispatchList
import Verif.Model.Dlet
import Verif.Model.Dletseq
import Verif.Model.Doc
import Verif.Model.Dyn
import Verif.Model.DynView
import Verif.Model.Ec
import Verif.Model.EcTags
import Verif.Model.Eff
import Verif.Model.Env
import Verif.Model.EnvMap
import Verif.Model.Envify
import Verif.Model.EquipTb
import Verif.Model.Excutil
import Verif.Model.ExpView
import Verif.Model.Fix
import Verif.Model.FixLazy
import Verif.Model.FixShared
import Verif.Model.FixTco
import Verif.Model.Fixtures
import Verif.Model.Fold
import Verif.Model.Forall
import Verif.Model.ForceArgs
import Verif.Model.Fploop
import Verif.Model.Fun
import Verif.Model.FupCall
import Verif.Model.GMemo
import Verif.Model.GMemoMany
import Verif.Model.GMemoSelf
import Verif.Model.IMemo
import Verif.Model.ISlice
import Verif.Model.Intern
import Verif.Model.It
import Verif.Model.ItEdge
import Verif.Model.ItLazy
import Verif.Model.JumpWarn
import Verif.Model.LList
import Verif.Model.Lazify
import Verif.Model.Lazy
import Verif.Model.LazyCalls
import Verif.Model.LazyCompose
import Verif.Model.LazyFun
import Verif.Model.LazyLet
import Verif.Model.LazyMemo
import Verif.Model.LazyOrder
import Verif.Model.LazyPipe
import Verif.Model.Lazyrec
import Verif.Model.Let
import Verif.Model.LetDo
import Verif.Model.LetSyntax
import Verif.Model.LetView
import Verif.Model.LibCall
import Verif.Model.Lifecycle
import Verif.Model.MacroUse
import Verif.Model.MathInfix
import Verif.Model.MathOnce
import Verif.Model.Mathseq
import Verif.Model.Memo
import Verif.Model.MemoCall
import Verif.Model.MemoMany
import Verif.Model.Misc
import Verif.Model.Mogrify
import Verif.Model.Multilambda
import Verif.Model.NamedLambda
import Verif.Model.Namelambda
import Verif.Model.Nb
import Verif.Model.Net
import Verif.Model.Numutil
import Verif.Model.Overlap
import Verif.Model.Prefix
import Verif.Model.Pty
import Verif.Model.Py
import Verif.Model.PyDict
import Verif.Model.PyExpr
import Verif.Model.PySlice
import Verif.Model.PyStmt
import Verif.Model.QuickLambda
import Verif.Model.Report
import Verif.Model.Resignal
import Verif.Model.Scope
import Verif.Model.Seq
import Verif.Model.Shadowed
import Verif.Model.Shim
import Verif.Model.Sig
import Verif.Model.SignalArg
import Verif.Model.SimpleLet
import Verif.Model.Slices
import Verif.Model.Summary
import Verif.Model.SymName
import Verif.Model.Tco
import Verif.Model.TcoLazy
import Verif.Model.TcoMacro
import Verif.Model.TestThreads
import Verif.Model.The
import Verif.Model.Traceback
import Verif.Model.Typecheck
import Verif.Model.Ulp
import Verif.Model.View
import Verif.Model.ViewCopy
import Verif.Model.ViewEq
import Verif.Proof.Amb
import Verif.Proof.Arity
import Verif.Proof.Autocurry
import Verif.Proof.Autoref
import Verif.Proof.Autoreturn
import Verif.Proof.BindPartial
import Verif.Proof.Client
import Verif.Proof.Conditions
import Verif.Proof.Control
import Verif.Proof.Conts
import Verif.Proof.Curry
import Verif.Proof.CurryAnnotated
import Verif.Proof.CurryGeneric
import Verif.Proof.Deco
import Verif.Proof.Dispatch
import Verif.Proof.Dlet
import Verif.Proof.DletRun
import Verif.Proof.DletScope
import Verif.Proof.Dletseq
import Verif.Proof.Dyn
import Verif.Proof.Ec
import Verif.Proof.Envify
import Verif.Proof.ExpView
import Verif.Proof.Fix
import Verif.Proof.FixLazy
import Verif.Proof.FixTco
import Verif.Proof.Fixtures
import Verif.Proof.Forall
import Verif.Proof.ForceArgs
import Verif.Proof.GMemo
import Verif.Proof.GMemoMany
import Verif.Proof.GMemoManyLive
import Verif.Proof.Intern
import Verif.Proof.It
import Verif.Proof.ItFlatten
import Verif.Proof.ItLazy
import Verif.Proof.JumpWarn
import Verif.Proof.Lazify
import Verif.Proof.LazifyPlain
import Verif.Proof.LazyFun
import Verif.Proof.LazyLet
import Verif.Proof.LazyMemo
import Verif.Proof.LazyOrder
import Verif.Proof.Lazyrec
import Verif.Proof.Let
import Verif.Proof.LetDo
import Verif.Proof.LetDoClash
import Verif.Proof.LetDoExpand
import Verif.Proof.LetDoFresh
import Verif.Proof.LetDoInv
import Verif.Proof.LetDoMain
import Verif.Proof.LetDoSim
import Verif.Proof.LetSyntax
import Verif.Proof.LetView
import Verif.Proof.Lifecycle
import Verif.Proof.MathInfix
import Verif.Proof.Mathseq
import Verif.Proof.MathseqS
import Verif.Proof.Memo
import Verif.Proof.MemoCall
import Verif.Proof.MemoMany
import Verif.Proof.Mogrify
import Verif.Proof.Multilambda
import Verif.Proof.NamedLambda
import Verif.Proof.Namelambda
import Verif.Proof.Net
import Verif.Proof.Numutil
import Verif.Proof.Prefix
import Verif.Proof.Pty
import Verif.Proof.PyDict
import Verif.Proof.PySlice
import Verif.Proof.QuickLambda
import Verif.Proof.Scope
import Verif.Proof.Shadowed
import Verif.Proof.Shim
import Verif.Proof.Slices
import Verif.Proof.StSim
import Verif.Proof.SymName
import Verif.Proof.Tco
import Verif.Proof.TcoFull
import Verif.Proof.TcoOrder
import Verif.Proof.TcoSim
import Verif.Proof.The
import Verif.Proof.Typecheck
import Verif.Proof.Ulp
import Verif.Proof.View
import Verif.Proof.ViewCopy
import Verif.Props.Amb
import Verif.Props.AmbEq
import Verif.Props.Arity
import Verif.Props.ArityGeneric
import Verif.Props.AsyncRaise
import Verif.Props.Autocurry
import Verif.Props.Autoref
import Verif.Props.Autoreturn
import Verif.Props.Callsite
import Verif.Props.Client
import Verif.Props.Conditions
import Verif.Props.ConsRepr
import Verif.Props.Containers
import Verif.Props.Control
import Verif.Props.ControlClient
import Verif.Props.Conts
import Verif.Props.Curry
import Verif.Props.CurryAnnotated
import Verif.Props.CurryCompose
import Verif.Props.CurryGeneric
import Verif.Props.CurryLazy
import Verif.Props.CurryWraps
import Verif.Props.Dbg
import Verif.Props.Deco
import Verif.Props.Describe
import Verif.Props.DetectLambda
import Verif.Props.Dispatch
import Verif.Props.DispatchError
import Verif.Props.DispatchList
import Verif.Props.Dlet
import Verif.Props.Dletseq
import Verif.Props.Doc
import Verif.Props.Dyn
import Verif.Props.DynView
import Verif.Props.Ec
import Verif.Props.EcTags
import Verif.Props.Env
import Verif.Props.EnvMap
import Verif.Props.Envify
import Verif.Props.EquipTb
import Verif.Props.Excutil
import Verif.Props.ExpView
import Verif.Props.Fix
import Verif.Props.FixLazy
import Verif.Props.FixShared
import Verif.Props.Fixtures
import Verif.Props.Fold
import Verif.Props.Forall
import Verif.Props.ForceArgs
import Verif.Props.Fploop
import Verif.Props.Fun
import Verif.Props.FupCall
import Verif.Props.GMemo
import Verif.Props.GMemoMany
import Verif.Props.GMemoSelf
import Verif.Props.IMemo
import Verif.Props.ISlice
import Verif.Props.Intern
import Verif.Props.It
import Verif.Props.ItEdge
import Verif.Props.JumpWarn
import Verif.Props.LList
import Verif.Props.Lazify
import Verif.Props.LazifyPlain
import Verif.Props.Lazy
import Verif.Props.LazyCalls
import Verif.Props.LazyCompose
import Verif.Props.LazyFun
import Verif.Props.LazyLet
import Verif.Props.LazyMemo
import Verif.Props.LazyOrder
import Verif.Props.LazyPipe
import Verif.Props.Lazyrec
import Verif.Props.Let
import Verif.Props.LetDo
import Verif.Props.LetSyntax
import Verif.Props.LetView
import Verif.Props.LibCall
import Verif.Props.Lifecycle
import Verif.Props.MacroUse
import Verif.Props.MathInfix
import Verif.Props.MathOnce
import Verif.Props.Mathseq
import Verif.Props.MathseqS
import Verif.Props.Memo
import Verif.Props.MemoCall
import Verif.Props.MemoMany
import Verif.Props.Misc
import Verif.Props.Mogrify
import Verif.Props.Multilambda
import Verif.Props.NamedLambda
import Verif.Props.Namelambda
import Verif.Props.Nb
import Verif.Props.Net
import Verif.Props.Numutil
import Verif.Props.Overlap
import Verif.Props.Prefix
import Verif.Props.Pty
import Verif.Props.QuickLambda
import Verif.Props.Report
import Verif.Props.Resignal
import Verif.Props.Scope
import Verif.Props.Shadowed
import Verif.Props.Shim
import Verif.Props.SignalArg
import Verif.Props.SimpleLet
import Verif.Props.Slices
import Verif.Props.Summary
import Verif.Props.SymName
import Verif.Props.Tco
import Verif.Props.TcoLazy
import Verif.Props.TcoMacro
import Verif.Props.TcoSpace
import Verif.Props.TestThreads
import Verif.Props.The
import Verif.Props.Traceback
import Verif.Props.Typecheck
import Verif.Props.Ulp
import Verif.Props.View
import Verif.Props.ViewCopy
import Verif.Props.ViewEq
import Verif.Spec.Amb
import Verif.Spec.AmbEq
import Verif.Spec.Arity
import Verif.Spec.AsyncRaise
import Verif.Spec.Autocurry
import Verif.Spec.Autoref
import Verif.Spec.Autoreturn
import Verif.Spec.Callsite
import Verif.Spec.Client
import Verif.Spec.Conditions
import Verif.Spec.ConsRepr
import Verif.Spec.Control
import Verif.Spec.ControlClient
import Verif.Spec.Conts
import Verif.Spec.Curry
import Verif.Spec.CurryAnnotated
import Verif.Spec.CurryCompose
import Verif.Spec.CurryGeneric
import Verif.Spec.CurryWraps
import Verif.Spec.Dbg
import Verif.Spec.Deco
import Verif.Spec.Describe
import Verif.Spec.DetectLambda
import Verif.Spec.Dispatch
import Verif.Spec.DispatchError
import Verif.Spec.DispatchList
import Verif.Spec.Dlet
import Verif.Spec.Dletseq
import Verif.Spec.Doc
import Verif.Spec.Dyn
import Verif.Spec.Ec
import Verif.Spec.Env
import Verif.Spec.EnvMap
import Verif.Spec.Envify
import Verif.Spec.EquipTb
import Verif.Spec.Excutil
import Verif.Spec.ExpView
import Verif.Spec.Fix
import Verif.Spec.FixShared
import Verif.Spec.FixTco
import Verif.Spec.Fixtures
import Verif.Spec.Fold
import Verif.Spec.Forall
import Verif.Spec.ForceArgs
import Verif.Spec.Fploop
import Verif.Spec.Fun
import Verif.Spec.FupCall
import Verif.Spec.GMemoMany
import Verif.Spec.GMemoSelf
import Verif.Spec.Intern
import Verif.Spec.It
import Verif.Spec.JumpWarn
import Verif.Spec.LList
import Verif.Spec.Lazify
import Verif.Spec.LazifyPlain
import Verif.Spec.LazyCalls
import Verif.Spec.LazyCompose
import Verif.Spec.LazyFun
import Verif.Spec.LazyLet
import Verif.Spec.LazyMemo
import Verif.Spec.LazyOrder
import Verif.Spec.LazyPipe
import Verif.Spec.Lazyrec
import Verif.Spec.Let
import Verif.Spec.LetDo
import Verif.Spec.LetSyntax
import Verif.Spec.LetView
import Verif.Spec.LibCall
import Verif.Spec.Lifecycle
import Verif.Spec.MacroUse
import Verif.Spec.MathInfix
import Verif.Spec.MathOnce
import Verif.Spec.Mathseq
import Verif.Spec.Memo
import Verif.Spec.MemoCall
import Verif.Spec.MemoMany
import Verif.Spec.Misc
import Verif.Spec.Mogrify
import Verif.Spec.Multilambda
import Verif.Spec.NamedLambda
import Verif.Spec.Namelambda
import Verif.Spec.Nb
import Verif.Spec.Net
import Verif.Spec.Numutil
import Verif.Spec.Overlap
import Verif.Spec.Prefix
import Verif.Spec.Pty
import Verif.Spec.QuickLambda
import Verif.Spec.Report
import Verif.Spec.Resignal
import Verif.Spec.Scope
import Verif.Spec.Shadowed
import Verif.Spec.Shim
import Verif.Spec.SignalArg
import Verif.Spec.SimpleLet
import Verif.Spec.Slices
import Verif.Spec.SymName
import Verif.Spec.Tco
import Verif.Spec.TcoLazy
import Verif.Spec.TcoMacro
import Verif.Spec.TestThreads
import Verif.Spec.The
import Verif.Spec.Typecheck
import Verif.Spec.Ulp
import Verif.Spec.View
import Verif.Spec.ViewCopy
import Verif.Spec.ViewEq
