import Verif.Data
import Verif.ListPrims
import Verif.Spec
import Verif.ListLemmas
import Verif.ListLemmas2
import Verif.Props.Lists
import Verif.Props.Callbacks
import Verif.Equal
import Verif.SetLemmas
import Verif.Props.Sets
import Verif.Props.Access
import Verif.F32
import Verif.Num
import Verif.Props.Numbers
import Verif.Props.Numbers2
import Verif.Arity
import Verif.Props.Arity
import Verif.Reader
import Verif.ReaderLemmas
import Verif.ReaderPrint
import Verif.ReaderRound
import Verif.Props.Reader
import Verif.Frame
import Verif.FrameLemmas
import Verif.Props.Frame
import Verif.Store
import Verif.ProgLemmas
import Verif.Eval
import Verif.TextPrims
import Verif.EvalPrims
import Verif.EvalSpec
import Verif.EvalLemmas
import Verif.EvalInv
import Verif.CallLemmas
import Verif.Demo
import Verif.Props.Control
import Verif.Props.Calls
import Verif.Props.Scope
import Verif.LetLemmas
import Verif.Props.Let
import Verif.QuasiLemmas
import Verif.Props.Quasi
import Verif.Props.Methods
import Verif.Props.Symbols
import Verif.Bytes
import Verif.Props.Bytes
import Verif.Str
import Verif.Utf8
import Verif.Props.Strings
import Verif.Sort
import Verif.Props.Sort
import Verif.Heap
import Verif.HeapLemmas
import Verif.Props.Heap
import Verif.Atomic
import Verif.Props.Atomics
import Verif.Props.Floats
import Verif.Chan
import Verif.ChanInv
import Verif.Props.Channels
import Verif.Process
import Verif.ProcessInv
import Verif.Props.Processes
import Verif.Intern
import Verif.Props.Interning
import Verif.Json
import Verif.Props.JsonFrames
import Verif.Grammar
import Verif.Props.Grammar
import Verif.LispLemmas
import Verif.Props.FrameCalls
import Verif.Manual
import Verif.LibraryLemmas
import Verif.ApplyLemmas
import Verif.DemoCalls
import Verif.Props.Library
import Verif.Props.Library2
import Verif.Props.Library3
import Verif.Props.Counts
import Verif.Props.Apply
import Verif.ProcSpec
import Verif.ProcLemmas
import Verif.Props.Procedures
import Verif.Strict
import Verif.DemoErrors
import Verif.Props.Errors
import Verif.Props.Threading
import Verif.Live
import Verif.Good
import Verif.GoodEval
import Verif.GoodText
import Verif.GoodPrims
import Verif.ReadLive
import Verif.Props.Crash
import Verif.Text
import Verif.Props.Text
import Verif.Format
import Verif.FormatSpec
import Verif.FormatLemmas
import Verif.Props.Format
import Verif.JsonAlist
import Verif.Props.JsonAlists
import Verif.PureSpec
import Verif.PureLemmas
import Verif.Samples
import Verif.PureRules
import Verif.Props.Pure
import Verif.Props.Define
import Verif.FunSpec
import Verif.FunLemmas
import Verif.FunRules
import Verif.Props.Functions
import Verif.BenchSamples
import Verif.Props.Benchmarks
import Verif.Props.Programs
import Verif.Utf8Lemmas
import Verif.TextManual
import Verif.Props.Texts
import Verif.Ports
import Verif.PortLemmas
import Verif.Props.Ports
import Verif.EnvManual
import Verif.Props.Environments
import Verif.Props.SortCalls
import Verif.Props.Calculations
import Verif.Props.Utilities
import Verif.CopyLemmas
import Verif.FrameEqual
import Verif.FrameCopy
import Verif.Props.FrameValues
import Verif.BytePrims
import Verif.FormatCall
import Verif.Props.ByteCalls
import Verif.Props.Output
import Verif.Props.Loading
import Verif.Props.AtomicCalls
import Verif.Threads
import Verif.Rely
import Verif.RelyPure
import Verif.Props.Threads
import Verif.ImpSpec
import Verif.ImpLemmas
import Verif.ImpRules
import Verif.Props.Assignments
import Verif.StreamSpec
import Verif.StreamLemmas
import Verif.StreamHeap
import Verif.Props.Streams
import Verif.TestSpec
import Verif.TestLemmas
import Verif.Props.TestKit
import Verif.Props.TestErrors
import Verif.Props.TestContext
