# golisp: formal model and proof plan

Source under study: SteelSeries/golisp (Go), read as text in `/repo`; nothing there is built or run.
The model is Lean 4 (4.33.0), in `lean/Verif/`.  `lake build` in `lean/` checks every theorem.

## 1. Trusted base

* Lean 4.33.0's kernel.  No axioms are added; there is no `sorry`, `admit`, `native_decide`, `bv_decide`,
  `implemented_by` or `unsafe`.  Theorems use at most `propext`, `Classical.choice` and `Quot.sound`
  (the standard library's own axioms), as `#print axioms` shows.  Lean's core library is imported; of
  Mathlib only polynomials and their derivatives, Fibonacci numbers and Ackermann's function, for the statement of C76, and derivatives of real functions for C89.
* The reading of the Go source: each Lean definition cites the file and lines it models and states simplifications.
  The link from model to Go is by inspection only.
* Go runtime facts assumed, each recorded at the definition that uses it: semantics of int64 wrap-around and of
  conversions, of channels/select/mutex/atomic operations (each modelled as one atomic step), of maps
  (iteration order arbitrary), of `sort.Slice` (permutes by swaps only, see C60), of the `strings` functions used,
  and of `encoding/json` (modelled after decoding to its generic value).

## 2. Layout of the model

| module | models |
|---|---|
| `Verif/Data.lean` | `data.go`, `util.go`, `list_access.go`: values, NilP, car/cdr, length, reverse, append, copy, alists, equality, flatten |
| `Verif/ListPrims.lean` | `prim_list_*.go`, `prim_alist.go`: list primitives, with callbacks as arbitrary stateful failing actions |
| `Verif/Sort.lean` | `sort`, with Go's `sort.Slice` as an arbitrary program of comparisons and swaps |
| `Verif/Heap.lean` | cons cells with identity: aliasing, append vs append!, set-car!/set-cdr!/set-nth!, RemoveFromListBang |
| `Verif/Num.lean`, `Verif/F32.lean` | `prim_math.go`, `prim_relative_logical.go`, `prim_binary.go`, float32 arithmetic with IEEE rounding |
| `Verif/Bytes.lean` | `prim_bytearray.go` with boxes and arrays that may be shared |
| `Verif/Str.lean`, `Verif/Utf8.lean` | `prim_string.go` on Go byte strings; texts as their UTF-8 bytes and back |
| `Verif/Arity.lean` | argument count specifications (`primitive_function.go`) |
| `Verif/Reader.lean` | `tokenizer.go`, `parser.go`, printer part of `data.go` |
| `Verif/Store.lean`, `Verif/Eval.lean`, `Verif/EvalPrims.lean` | environments, functions, macros, evaluator, special forms; the table of primitives with their registered argument counts |
| `Verif/TextPrims.lean` | string, float, sort and name-listing primitives as the evaluator calls them (on top of `Str`, `F32`, `Num`, `Sort`) |
| `Verif/Utf8Lemmas.lean`, `Verif/TextManual.lean` | UTF-8 encodes texts uniquely, prefix-free and in order; the manual of the string primitives (specification of C77) |
| `Verif/NumberManual.lean` | the manual of rounding, powers, intervals and reading numerals (specification of C81) |
| `Verif/Text.lean` | evaluating a text (`parser.go`) |
| `Verif/Format.lean` | `format` (`prim_io.go`), on byte strings; the printed forms of the arguments are arbitrary |
| `Verif/Ports.lean` | file ports (`prim_io.go`, `ParseObjectFromFileInEnv`) over a disk of files with texts, with the one-entry tokenizer cache and any amount of read-ahead |
| `Verif/EnvManual.lean` | a manual of the environment primitives in terms of visible and local bindings |
| `Verif/Frame.lean` | `frame.go` over every map iteration order |
| `Verif/FrameEqual.lean`, `Verif/FrameCopy.lean` | specification of sameness and of copies of values with frames in them (C83), with lemmas |
| `Verif/BytePrims.lean`, `Verif/FormatCall.lean` | the byte array primitives of the evaluator (arrays are values there), and `format` as called by programs |
| `Verif/Atomic.lean`, `Verif/Chan.lean`, `Verif/Process.lean`, `Verif/Intern.lean` | atomics, channels, processes, interning as step machines over all interleavings |
| `Verif/Threads.lean` | threads that evaluate in one state, stepping in any order (`prim_concurrency.go:49-97,141-206`); a look at the state, an action on it and the entry into a call are the steps |
| `Verif/Rely.lean`, `Verif/RelyPure.lean` | a rely-guarantee logic over the programs of the interpreter (`Safe`), and pure expressions in it (C91) |
| `Verif/Json.lean`, `Verif/JsonAlist.lean` | `json_frame_support.go`, `json_support.go` |
| `Verif/PureSpec.lean`, `Verif/Samples.lean` | the textbook language of C75; `samples/deriv.lsp`, `lisp/bench.lsp` as texts and as definitions |
| `Verif/FunSpec.lean`, `Verif/FunRules.lean`, `Verif/BenchSamples.lean` | the textbook language with functions as values of C88, and rules derived from it; more of `lisp/bench.lsp` |
| `Verif/ImpSpec.lean`, `Verif/ImpLemmas.lean`, `Verif/ImpRules.lean` | the language with assignment of C92: the environment model of evaluation, how states stand for its memory, and rules derived from it |
| `Verif/StreamSpec.lean`, `Verif/StreamLemmas.lean`, `Verif/StreamHeap.lean` | C93: the text of `lisp/streams.lsp`, the definitions that the modelled reader finds in it (`streams_reads`), sequences and stream expressions; what each definition does in the environment model; memories whose promises are typed by the sequences they stand for |
| `Verif/TestSpec.lean`, `Verif/TestLemmas.lean` (with `Props/TestKit.lean`, `Props/TestErrors.lean`, `Props/TestContext.lean`) | C94, C95, C96: the text of `lisp/testing.lsp` (lines 1-141), the definitions that the modelled reader finds in it (`testing_reads`), states in which it is loaded, the tally; what its procedures do |
| `Verif/Demo.lean` | reader and evaluator put together, for the concrete examples |
| `Verif/Spec.lean`, `Verif/EvalSpec.lean`, `Verif/Grammar.lean`, `namespace Golisp.Spec` elsewhere | specifications |
| `Verif/Strict.lean`, `Verif/Live.lean`, `Verif/Good*.lean` | logics over all programs of the interpreter (C41, C71) |
| `Verif/*Lemmas*.lean`, `Verif/*Inv.lean`, `Verif/Equal.lean`, `Verif/Reader{Print,Round}.lean` | helper lemmas |
| `Verif/Props/*.lean` | property theorems, with non-vacuity examples |

Conventions: Go `nil` is an explicit constructor; errors are values; a Go runtime panic is an explicit `panic` outcome,
never silently totalised; unbounded loops take fuel, and theorems either prove enough fuel exists or quantify over all fuel.

## 3. Plan per property

"Induction" below is over the list/value/derivation named; "refinement" is against the small specification named.

| id | model | proof |
|---|---|---|
| C01 | `Copy`, `AppendList` on the heap model and on values | refinement to `List ++`; frame condition: no pre-existing cell written |
| C02 | `AppendBangList` on the heap model | induction along the list segment; exact write-set |
| C03 | `Reverse` | refinement to `List.reverse` |
| C04 | `Nth`, nth/list-ref/take/drop/sublist primitives | refinement to `List` indexing/take/drop; error branches explicit |
| C05 | `partitionBySize`, `partitionByPredicate` | refinement to a chunking spec; induction |
| C06 | map/for-each over a stateful failing callback | refinement to a call-log specification |
| C07 | `reduceFoldProc` and its four users | refinement to `foldlM`/`foldrM` |
| C08 | filter/remove | refinement to `List.filterM`-like spec |
| C09 | find/find-tail/memq/any/every | refinement with call log |
| C10 | union/intersection/complement incl. `RemoveFromListBang` | membership iff, for all lists |
| C11 | Acons/Assoc/Dissoc | map-update laws |
| C12 | `IsEqual` | reflexive/symmetric/transitive on plain data; negation witnesses for dotted pairs and alists (partial) |
| C13 | `WalkList`, general-car-cdr | composition law; termination for non-negative paths, non-termination witness otherwise |
| C14 | Flatten/RecursiveFlatten | refinement to `List.flatten`/leaves |
| C15 | tokenizer+parser+printer | round trip by induction on values |
| C16 | tokenizer+parser | every read token shortens input; parser fuel = input length suffices |
| C17 | tokenizer+parser | padding lemma; ParseAll of joined texts |
| C18 | `readString`, `escapeQuotes` | round trip by induction on characters |
| C19 | +,-,* on `BitVec 64` | equals exact `Int` result wrapped; permutation invariance |
| C20 | quotient/remainder | division identity, sign, error branch; `(% a 0)` panic as explicit negation |
| C21 | exact int->float32 rounding model | monotone, exact below 2^24; negation witness 2^24 vs 2^24+1 (partial) |
| C22 | pow loop | loop invariant |
| C23 | interval loop | refinement to arithmetic progression |
| C24 | number->string/string->number | round trip by digit induction |
| C25 | min/max/parity/sign | fold invariant |
| C26 | `BitVec` ops | bitwise laws; binary-not's 32-bit mask as negation (partial) |
| C27,C28,C29 | byte arrays on a small store with aliases | round trip, exact write set, error branches; extract-bytes overflow as negation |
| C30 | argument count spec parser + checker; call of a primitive | refinement to a grammar-based specification; wrong counts refused before any argument is evaluated |
| C31 | makeLocalBindings | refinement to zip; rest-only parameter bug as negation (partial) |
| C32-C44 | fuel evaluator over environment/frame store | induction on fuel and on forms; event log for evaluation order |
| C41 | which calls a call starts (`Starts`, `Within`), over every program of the interpreter | every program and every primitive of the table passes an error on except at the guarded places (`Verif/Strict.lean`), then induction down to the failing call |
| C45-C48 | frame graph, DFS with visited set, arbitrary parent order | graph reachability equivalence; write-set lemmas |
| C49 | Intern as two-step protocol over threads | sequential idempotence; race witness (partial) |
| C50 | gensym under mutex | invariant: names issued are pairwise distinct; injectivity of prefix-count |
| C51,C52 | Go channel machine | invariant: sent = received ++ buffered ++ pending |
| C53 | process join protocol | invariant over all interleavings |
| C54,C55 | schedule/abandon/reset, wake/sleep machines | invariants |
| C56 | atomic cells | invariant: value = init + sum; CAS uniqueness |
| C57 | JSON value <-> Lisp value conversion | round trip by mutual induction; null/colon cases as negation (partial) |
| C58,C59 | string primitives over character lists | round trips / iff specifications |
| C60 | sort over arbitrary swap scripts | permutation; order under the sort.Slice contract |
| C61 | string tests and comparisons on byte strings | refinement to list prefix/suffix/infix and lexicographic order |
| C62,C63 | set-car!/set-cdr!/set-nth!, RemoveFromListBang on the heap | exact write sets |
| C64 | float folds over IEEE rounding | refinement to exact dyadic values rounded once per step; rounding itself proved correct |
| C65 | reader against an inductive grammar | induction on derivations, both for well-formed and for broken texts |
| C66 | frame primitives called through the evaluator | from `Calling` (operator and arguments evaluated) to exact result and exact change of the frame table |
| C67 | library primitives called through the evaluator | `Verif.Manual` states result by argument values (`Arithmetic`, `ListWork`, `Misuse`, `Takes`); every table entry is shown to meet it |
| C68 | `apply`, `QuoteAll`, `ApplyWithoutEval` | reduction of `apply` to the call of the procedure; quoted values evaluate to themselves |
| C69 | `map`, `filter`, folds, searches called through the evaluator | `Verif.ProcSpec` states the calls as relations (`Calls`, `Until`, `Folds`, `Selects`, `Finds`); induction over the loops |
| C70 | `->`, `=>` | relations `Threads`, `Taps` over evaluations of the steps; induction over the steps |
| C71 | the whole interpreter; references into the state (`Live`, `Sound`), panics (`Fatal`, `Crashing`) | a program logic over the interpreter's programs (`Verif/Good.lean`): every program and every primitive of the table keeps references valid and panics only where it must; induction on depth |
| C72 | `ParseAndEvalAllInEnvironment`, `ParseAndEvalInEnvironment` | over the grammar of C65 and the evaluation of sequences; induction over the forms |
| C73 | `format` | control strings as pieces (`Spelled`), their text (`Renders`) in `Verif/FormatSpec.lean`; induction over the pieces; every control string is covered (`C73_texts`) |
| C74 | `JsonToLisp`, `LispToJson`, `JsonStringToLisp` | abstract values of C57, relations `AsAlist`, `DocOf`; induction over the value |
| C75 | the evaluator on programs without side effects | a textbook big-step semantics of first-order Lisp (`Verif/PureSpec.lean`) without environments, frames or state; induction over its derivations; definitions put a program in place |
| C76 | `samples/deriv.lsp`, `fib` and `ack` of `lisp/bench.lsp` | the texts themselves are read by the modelled reader (`Verif/Samples.lean`); values by induction in the textbook semantics, carried over by C75; specification from Mathlib (`MvPolynomial.pderiv`, `Nat.fib`, `ack`) |
| C77 | string primitives in the evaluated table | `Texts` (`Verif/TextManual.lean`) says the outcome of each call in terms of lists of characters; UTF-8 is self-synchronising and keeps the order of code points (`Verif/Utf8Lemmas.lean`), so searching, cutting and comparing bytes is searching, cutting and comparing characters |
| C78 | file ports | runs of port operations from a world without open files; an invariant says which tokens an open port is still going to deliver (kept by every operation except reading another port), another that an output port stands at the end of its file; the forms are those of `parseAll` (C16) |
| C79 | environments as values | a manual (relation `Environs`: primitive, argument values, outcome and state) proved for every call of the evaluated primitives; `eval` and `global-eval` as equivalences with evaluation in the given environment; no environment ever holds a name twice (invariant); what was defined or assigned is looked up again |
| C80 | `sort` in programs | every run is a sequence of calls of the procedure with two elements (relation `Compared`), for any sorting program in range; order for any invariant-keeping strict weak comparison; instances `<`, `>` and `string<?`; assumes of Go's library only that it sorts (`Sorts`, proved for its insertion sort, C60) |
| C81 | the remaining numeric primitives in the evaluated table | `Calculations` (`Verif/NumberManual.lean`) says the outcome of each call: floor and ceiling as the nearest whole floats below and above (exactness from the 24-bit significand), powers modulo 2^64, arithmetic progressions, numerals digit by digit after Go's white space and an optional sign; the functions of Go's package math are the host's |
| C82 | the remaining frame, method, definition and output primitives in the evaluated table | `Props/Utilities.lean`: slot listings against `OwnSlots`/`ValuesOf` for every map order (no frame has two slots of one name is part of the state invariant `Sound` of C71); `apply-slot` and `apply-slot-super` through `Inherits`/`FromParent` to the call of the function with the spread values; `definition-of` against the shape of a definition, which by C33 defines the same function again; output as the concatenation of written forms |
| C83 | `IsEqual`, `Length` and `Copy` on values with frames in them (`data.go`), as called by programs; `general-car-cdr` in programs | `Props/FrameValues.lean`: sameness is a separate inductive relation on values and frames; the comparison, which in the model is nested as deep as there are pairs of frames, decides it (a pigeonhole argument on the pairs found equal); symmetry and transitivity refuted by programs, proved when no slot holds nil; `copy` against an inductive relation in which every frame is new, and it ends exactly for values whose frames are nested to a finite depth (induction on the depth of recursive calls) |
| C84 | the byte array primitives that make new arrays or read (`prim_bytearray.go`), as called by programs | `Props/ByteCalls.lean`: a manual (`ByteWork`) of arguments and answers, stated with splittings of the array; a call with arguments as in the manual answers so, every other call is refused, except when the end of the part asked for does not fit into an integer (`C84_extract_violation`) |
| C85 | `write-string`, `write`, `newline`, `format` (`prim_io.go`) to standard output, as called by programs | `Props/Output.lean`: the state keeps the texts written, in order; the text of `format` is given by the grammar of C73 (`Spelled`, `Renders`), with the arguments' printed forms; the crash of `format` is characterised exactly (`CutShort`); what was written is a prefix of what is written later (invariant over all programs) |
| C86 | `load` (`prim_system.go`, `parser.go:329-364`), as called by programs; the files are a given function | `Props/Loading.lean`: the forms of the text by the grammar of C72, their evaluation in order by `Seq`; a text broken after some forms is an error after their effects; a `()` form ends the file silently (`C86_nil_violation`) |
| C87 | the atomic primitives (`prim_concurrency.go:279-408`), as called by programs of one thread | `Props/AtomicCalls.lean`: a manual (`AtomicWork`) over the list of words; every other call is refused; that the object of a call has a word is an invariant of all sessions (`Sound`, as for C71), so `C87_total` needs no hypothesis on the arguments.  Several threads are the subject of C56 |
| C88 | the evaluator on programs without side effects in which functions are values (`lambda`, `do`, `map`, `filter`, folds) | `Verif/FunSpec.lean`: a big-step semantics with closures over mathematical values, without store; a value is related to what represents it in a state (`Rep`, `Held`), which stays so as the state grows (`Calm`); mutual induction over derivations (`Verif/FunLemmas.lean`, `Props/Functions.lean`) |
| C89 | `deriv`, `create-n`, `iterative-div2` of `lisp/bench.lsp` | the text is read by the modelled reader (`Verif/BenchSamples.lean`); values by induction in the textbook semantics of C88, carried over by it; the derivative is Mathlib's `HasDerivAt` over the reals, by induction over expressions with operand lists |
| C90 | evaluator threads over all interleavings (`Verif/Threads.lean`) | `Props/Threads.lean`: `C90_alone` by equivalence of steps and `interp`; `C90_invariants` because every action respects them; `C90_gensym`, `C90_register`, `C90_counter`, `C90_exchange` by induction over executions, against a register specification of the trace.  Simplifications: a look is atomic (Go takes the locks of a chain of environments one after the other), so is an action (`BindLocallyTo` looks up the binding before it locks to store), and what starts threads is not recorded: any call may start at any time.  Go's memory model is taken to be sequentially consistent, as the locks and atomics make it |
| C91 | the same, with the pure expressions of C75 | the full statement is violated by the mark on function objects (`C91_violation`: a function called as a method by one thread and plainly by another).  For pure expressions: `Safe` (rely-guarantee) by mutual induction over the derivation of the value, with ownership of the environments made by calls and `let`; `C91_partial` (one pure thread among polite ones), `C91_pool_partial` and `C91_ends_partial` (only pure threads, no assumption on each other), `C91_fib` (Fibonacci numbers in parallel) |
| C92 | the evaluator on programs with assignment, local state and macros | `Verif/ImpSpec.lean`: the environment model of evaluation as a big-step relation on a memory of frames, without golisp frames, marks, protected bindings or errors; `Models` relates a memory to a state (which environment stands for which frame), `Moves` says that nothing outside the frames changed; mutual induction over derivations (`Verif/Props/Assignments.lean`), each form by its own theorem (C32–C44); `C92_value`, `C92_program` (also unique: whatever the interpreter does is that), `C92_start` (the relation holds before any program has run), `C92_counter` (any number of calls of a counter).  The rounds of `do` share the variables, in the model as in the code.  Not in the language: variable argument lists, `apply` and the mapping procedures (C88 has those), programs that fail or do not end |
| C93 | the evaluator on the shipped file `lisp/streams.lsp` | `Verif/StreamSpec.lean` holds the text of the file; `streams_reads` shows that the modelled reader turns it into a list of expressions that contains `file` in this order.  `Stream e σ` says which sequence an expression stands for, without promises or memory.  The proof works in the environment model of C92: an invariant types every promise by a sequence and says that it holds the stream or can still compute it by forcing promises that are older (`Inv`), forcing keeps it (`force_ok`, strong induction on the promise), and so do all procedures.  `C93_element` (any earlier requests `qs`, then any element), `C93_integers`, `C93_fibonacci`, `C93_once` (any number of forcings).  Of the file, `stream-take`, `stream-filter`, `stream-map`, `stream-for-each`, `display-stream`, `print-stream`, `merge`, `zeros`, `a`, `b`, `stream-1-to-1000` and `h` are left out of the program that is proved; `stream-map` needs a rest parameter and `apply`, which the language of C92 does not have.  Intervals are within 2^24 (C21), and `scale-stream` is for endless streams, as it has no test for the end |
| C94 | the evaluator on the shipped file `lisp/testing.lsp` | `Verif/TestSpec.lean` holds the text; `testing_reads` shows that the modelled reader finds the definitions of `file` in it, in this order.  `Recorded` says what the tally is after an assertion, from the value alone; `Only` says that no variable but those named has changed.  `C94_assertion_partial`: the four assertions about one expression, any expression (whatever it does, as long as it leaves the framework and the assertion's own new environment alone; the latter it cannot reach before it is bound), both results, errors and crashes; proved by the rules of C44 (expansion), C32, C37, C38, C43 (quasiquotation) and C85 (`format`).  `C94_value_partial`: the same for expressions that change nothing.  `C94_trial_partial`: `assert-error` and `assert-nerror`, any expression that returns or fails (C41); it is evaluated in a new environment in which `msg` is bound, so the claim holds as it stands only for expressions without that name (`C94_msg_violation`).  The witness is the state after the kernel has read and run the whole text in the initial state (`after_loaded`, `after_tells`).  `C94_comparison_partial`: `assert-eq` and `assert-neq`, any two expressions whose values are plain data (as in C12; no functions, and the host's text of them does not depend on the state); both are evaluated in a new environment, the second where `actual` is bound, so the claim as it stands holds for expressions without that name (`C94_capture_violation`).  `C94_twice_violation` for `assert-memq`.  Not covered: `context`, `it` (C95), output in verbose mode, and lines 142 on (summary and runners: clock and directories) |
| C95 | the macro `it` of the shipped file | `C95_it_partial`: labels that are strings, any non-empty list of expressions that are no nil, any outcome (value, crash, error), by the rules of C44, C43 (with splicing), C37, C39 and C41; the handler is given by its parameters, body (`excuse`) and environment.  `C95_error_partial`: what the handler (`excuse`, then `log-error`) records of an error: one error and one report, `Blamed` saying from the characters of the error's text what the report tells of it; the tally of passes and failures, and everything else, is as it was.  The text of the error is the host's, a parameter.  `C95_label_violation`: a symbol as label is evaluated, so the name is the value of that variable, nil if there is none |
| C96 | the macro `context` of the shipped file | `C96_context_partial`: labels that are strings, any setup (`()` or a list), any non-empty list of tests that are no nil; the tests are the arguments, one each and in order, of calls (`Calls`) of one new procedure, which is given by its parameter, its body (the setup, then `(eval it-clause)`) and its environment; all outcomes; by the rules of C44, C43 (with splicing, also of `()`), C37, C33 and C69.  `C96_clause_partial`: one such call makes a new environment directly below that of the context with nothing bound but `it-clause` (and perhaps `self`), runs the setup there and then the test there (C31, C79), all outcomes; the setup must not rebind `it-clause` or `eval`.  `C96_all_partial` puts the two together for tests that return: an invariant that the setup and the next test, run in a new environment, carry on from one test to the next holds at the end; its example is a context with any number of tests, each of one assertion, by C94 and C95.  Missing: symbols as labels are evaluated (`C96_label_violation`, as in C95), a test that uses a variable named `it-clause` gets the test itself (`C96_capture_violation`), and contexts without tests |

Where the code violates the property, the negation is proved on a concrete witness and the part that holds is kept
under a `_partial` name.

## 4. Where the code disagrees with the property

Each line is a proved theorem (`_violation` or the theorem named) or, if marked (read), seen while modelling only.

* Lists: `reverse` loses raw nil elements (C03); `flatten`/`flatten*` leave empty sublists behind (C14); `equal?` ignores
  the tail of dotted pairs and is not symmetric between lists and association lists, and NaN differs from itself (C12);
  `dissoc` with duplicate keys (C11); `general-car-cdr` on a negative path never ends (C13).
* In place: `append!` on a first argument that is not a list writes through it, and loses a nil last element (C02);
  `set-car!`/`set-cdr!` on a non-pair panic because the error is overwritten; `set-nth!` takes indices below 1 as 1 (C62).
* Numbers: comparison and `abs` go through float32, wrong beyond 2^24 (C21, C25); `(% n 0)` panics (C20); `binary-not` flips
  only 32 bits (C26); `interval` up to the largest integer never ends (C23); arithmetic stops checking its arguments after a
  float (C64).
* Byte arrays: `list->bytearray` refuses the empty list (C27); `extract-bytes` with a count near 2^63 wraps (C28).
* Strings: `substring` with a negative start panics (C59); indices count bytes (C77).
* Ports: there is one tokenizer for all ports, so reading a second port throws away what was read ahead of the first; the
  end-of-file object is the symbol `__EOF__`, also when it stands in the file; successive `write`s run together; no read gets
  past an illegal character (C78).
* Environments as values: `environment-definable?` always says `#t`, also for protected names that `environment-define` then
  refuses, and `environment-assign!` ignores protection (C35); calling a function defined in the global environment enters the
  call's environment among the top-level ones under the function's name, so `find-top-level-environment` finds it instead of
  the environment made under that name; `make-top-level-environment` with lists of different lengths fails, but has already
  entered the new environment (C79).
* `(sort l <)` compares integers as 32-bit floats and can leave large ones out of order (C80).
* Argument counts: numbers too large for Go's int are dropped from a count specification (C30).
* Functions: a parameter list that is a bare symbol is never bound, for functions and macros (C31);
  `(apply prim '())` passes one nil argument, a list built by `cons` onto `'()` passes one nil too many, `(apply f)` panics,
  a special form can be applied and evaluates again (C68, C30); `find`/`find-tail` replace the error (C09).
* Scope: `environment-assign!` ignores the protection mark (C35); closures made earlier escape a restricted environment (C36);
  `set!` with a target that is not a symbol assigns to the empty name (read).
* `do`: an error in a step expression is swallowed (C40, C41).  `find`, `find-tail`, `memp` replace an error (C41).
* `->`, `=>`: the value is put into the next step as an expression and so evaluated again (C70).
* Quasiquote: dotted tails become `()`, spliced lists that end in an empty cell bring an extra `()` (C43).
* Reader: lists headed by `quote` of another length than two and strings with a backslash do not round trip (C15); a text that
  ends inside a dotted list is not an error (C16); `( . x)` reads as x, `{ ]` is a frame, stray closers are symbols,
  negative bytes wrap (read).  A `()` form silently ends the evaluation of a text (C72).
* Frames: with two parents the value found depends on map order (C45); a parent slot that holds no frame panics the search of
  an absent slot (C45); comparison of frames counts a slot missing in the second frame as nil, so it is neither symmetric nor
  transitive, and `copy` of a frame that holds itself never ends (C83); `send-super` runs the inherited method without `self` (C66).
* Crashes: `(% n 0)`, `(modulo n 0)`, `(apply f)`, `take`/`drop` of a negative number of bytes, `(string-capitalize "")`,
  `substring` from a negative start, `interval` that is too long or never ends, and `panic!` crash the host;
  only `panic!` is refused in restricted environments (C71).
* Concurrency: two goroutines can get different objects for one new symbol (C49); processes forked from one function share
  one back pointer (C53, read); abandon and reset race with an expired timer (C54); a huge `make-channel` size panics (C51); whether a function is called as
  a method is a mark on the function object, shared by all threads, so two threads that call one function, one as a method and one
  plainly, disturb each other although neither assigns to anything (C91).
* `format`: once one directive has the `@` modifier all later ones act as if they had it; a missing argument prints as `()`; a
  control string that ends inside a directive crashes the host (C73).
* Programs: `extract-bytes` adds index and length modulo 2^64, so a length too large can pass the check (C84); `replace-byte` reports the
  index where it should report the value (read); `write-line` writes to standard error, the other output primitives to standard output
  (read); `load` stops without an error at the first `()` of the file (C86); the rounds of a `do` loop share their variables, so a closure
  made in one round sees the values of the last (C88); the rule of `bench.lsp` for quotients is not the quotient rule (C89);
  in `streams.lsp` `scale-stream` has no test for the end of the stream and so fails on finite ones, `stream-take` prints the elements instead
  of taking them, and `partial-sums` of the empty stream is not empty (read); in `testing.lsp` the macros are not hygienic: an expectation that
  mentions a variable `actual` is met by any value, an expression that mentions `msg` means
  something else under `assert-error`, and `assert-memq` evaluates its object twice (C94).  `it` and `context` accept a symbol as label but evaluate it (C95, C96), and in a test of a `context` the name `it-clause` is taken (C96).  The report on an error in a test tells only what stands after the first full stop and blank in the last line of its text: nothing at all if there is none there (`C95_error_partial`, with `Blamed`).
* JSON: null, integers beyond 2^53, keys that end in colons, doubles (C57).  With association lists also booleans, floats, empty
  arrays and empty objects are lost, and text that is not JSON crashes the host (C74).

## 5. Not modelled

`write-bytes`, `list-directory`, standard input, the REPL, readline, debugger, profiler and logger, `exec`, timing values, random numbers, ports (no modelled primitive makes one, so an argument that should be one is refused), the texts of errors of `load` and `format`, the
`%v` text of values that `format` pads when they are no strings, a padding too large for memory, the
transcendental functions, Unicode case conversion, the text of JSON (Go's `encoding/json`), `TransformJson`,
memory exhaustion and Go stack overflow (comparing two different frames that hold themselves, which exhausts the stack, counts as
unequal in the model; the claims of C83 about comparison are meant for frames nested to a finite depth).  A frame with NaN in a slot is
unequal to itself in the code when it is reached through two different boxes, equal in the model; C83 leaves NaN out.  The evaluator's values are immutable; in-place mutation is in the heap model.

## 6. A check of the model against the project's own tests

The Lisp test files of the project (`/repo/tests/*.lsp`) were evaluated in the model (reader and evaluator run by Lean; the Go code
was not run).  Every assertion in them that uses only modelled primitives holds in the model.  The run found four mistakes of the model,
now corrected: frames were compared by identity, `(length frame)` was 0, and the set operations and `copy` did not copy frames.  This
is a test of the model, not part of any proof.
