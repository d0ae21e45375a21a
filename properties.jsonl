{"id": "C01", "title": "Append is concatenation and leaves its arguments alone", "statement": "(append a b) on lists a and b yields a list whose elements are those of a followed by those of b, in order and with nothing lost or duplicated; its length is the sum of the lengths; and no cell reachable from a or b before the call is changed by the call.", "quantifier": "every pair of proper lists of any length and contents, and every initial heap (including heaps where a and b share structure)", "why_tests_cant": "Tests fix a few literal lists; concatenation and non-mutation are claims about every list length and every sharing pattern.", "anchors": ["data.go:AppendList", "data.go:Append", "data.go:Copy", "prim_list_manipulation.go:AppendImpl"]}
{"id": "C02", "title": "append! mutates exactly the last cell of its first list", "statement": "(append! a b) on a non-empty proper list a changes exactly one cell (the cdr of a's last pair), returns a itself, and afterwards reading a gives the elements of a followed by those of b; every other cell in the heap is unchanged.", "quantifier": "every heap, every non-empty acyclic list a and every list b in it that do not share cells", "why_tests_cant": "Aliasing depends on the whole heap; tests observe one alias at a time.", "anchors": ["data.go:AppendBangList", "data.go:AppendBang", "prim_list_manipulation.go:AppendBangImpl"]}
{"id": "C03", "title": "Reverse", "statement": "(reverse l) holds exactly the elements of l in opposite order, preserves length, and reversing twice gives back the elements of l.", "quantifier": "every list of any length and element types", "why_tests_cant": "Induction over list length is needed; a test covers fixed lengths.", "anchors": ["data.go:Reverse", "prim_list_manipulation.go:ReverseImpl"]}
{"id": "C04", "title": "Indexing, take, drop, sublist and list-tail agree", "statement": "For a proper list l: (nth i l) is the i-th element for 1<=i<=length and nil outside; (list-ref l k) is (nth (k+1) l); (append (take k l) (drop k l)) has the elements of l; (sublist l i j) is elements i..j-1 (1-based, an end past the list is clipped, i>=j gives nil) and a non-positive index is an error, never a wrong slice.", "quantifier": "every list, every 64-bit index", "why_tests_cant": "Boundary behaviour must hold for every index/length combination.", "anchors": ["list_access.go:Nth", "prim_list_access.go:NthImpl", "prim_list_access.go:ListRefImpl", "prim_list_access.go:TakeImpl", "prim_list_access.go:DropImpl", "prim_list_manipulation.go:SublistImpl"]}
{"id": "C05", "title": "Partition loses nothing", "statement": "(partition n l) splits l into consecutive chunks whose concatenation is l, each of exactly n elements except possibly a shorter non-empty last one; (partition pred l) returns the elements satisfying pred and the others, each in original order, every element in exactly one of the two.", "quantifier": "every list, every positive size, every predicate (including ones that raise errors)", "why_tests_cant": "The chunk boundary arithmetic must be right for every size and length.", "anchors": ["prim_list_manipulation.go:partitionBySize", "prim_list_manipulation.go:partitionByPredicate"]}
{"id": "C06", "title": "map and for-each call order, count and error propagation", "statement": "(map f l1 .. lk) calls f exactly once per index below the shortest list's length, in index order, with the elements at that index, collects the results in order, and on the first error stops making calls and returns that error; for-each makes the same calls.", "quantifier": "every number of lists, every list length, every (stateful, possibly failing) f", "why_tests_cant": "Stateful or failing callbacks and arbitrary lengths cannot be enumerated.", "anchors": ["prim_list_functions.go:MapImpl", "prim_list_functions.go:ForEachImpl"]}
{"id": "C07", "title": "Folds and reductions", "statement": "fold-left computes f(..f(f(init,x1),x2)..,xn) and fold-right computes f(x1,f(x2,..f(xn,init))); reduce/reduce-left and reduce-right fold the elements of a non-empty list with no initial value used, and return the initial value on an empty list; the first error from f is returned and no further call is made.", "quantifier": "every list, every initial value, every callback including stateful and failing ones", "why_tests_cant": "Association order is visible only for non-associative f, and over all lengths.", "anchors": ["prim_list_functions.go:reduceFoldProc", "prim_list_functions.go:ReduceLeftImpl", "prim_list_functions.go:FoldRightImpl"]}
{"id": "C08", "title": "filter and remove are complementary selections", "statement": "(filter p l) is the subsequence of l on which p is true and (remove p l) the subsequence on which it is false, both in original order; a predicate result that is not a boolean is an error for both.", "quantifier": "every list and every predicate", "why_tests_cant": "Order and completeness for all lengths and all predicates.", "anchors": ["prim_list_functions.go:FilterImpl", "prim_list_functions.go:RemoveImpl"]}
{"id": "C09", "title": "find, find-tail, memq, any and every stop at the first decisive element", "statement": "find/find-tail/memq return the first match (or its tail) and never inspect later elements; any returns the first true result and every the first false one; elements after the deciding one are never passed to the predicate.", "quantifier": "every list, every stateful predicate", "why_tests_cant": "Absence of later calls is a statement about all executions.", "anchors": ["prim_list_functions.go:FindImpl", "prim_list_functions.go:FindTailImpl", "prim_list_functions.go:MemqImpl", "prim_list_functions.go:AnyImpl", "prim_list_functions.go:EveryImpl"]}
{"id": "C10", "title": "Set operations on lists", "statement": "Membership (by equal?) in (union a b ..) is the disjunction, in (intersection a b ..) the conjunction, and in (complement a b ..) membership in a and in none of the others; union contains no two equal elements; the argument lists are not changed.", "quantifier": "every list of lists with reflexively comparable elements", "why_tests_cant": "The result is built by mutating a copy while iterating; correctness must hold for every length and duplicate pattern.", "anchors": ["prim_list_set.go:UnionImpl", "prim_list_set.go:IntersectionImpl", "prim_list_set.go:ComplementImpl", "data.go:RemoveFromListBang"]}
{"id": "C11", "title": "Association list update", "statement": "After (acons k v al), looking k up gives v and every other key keeps its value; after (dissoc k al), k is not found and every other key keeps its value; lookups return the first matching pair.", "quantifier": "every association list, key and value", "why_tests_cant": "Shadowing/duplicate-key histories are unbounded.", "anchors": ["data.go:Acons", "data.go:Assoc", "data.go:Dissoc", "prim_alist.go"]}
{"id": "C12", "title": "equal? is an equivalence on readable data", "statement": "equal? is reflexive, symmetric and transitive on data without NaN, and two values that read back from the same text are equal; values that differ in any component are not equal.", "quantifier": "every pair/triple of values built from numbers, strings, symbols, booleans, byte arrays and (dotted) lists", "why_tests_cant": "Equivalence laws quantify over all pairs and triples.", "anchors": ["data.go:IsEqual"]}
{"id": "C13", "title": "car/cdr compositions", "statement": "Each c[ad]+r accessor equals the corresponding right-to-left composition of car and cdr, giving nil as soon as a non-pair is met; (general-car-cdr l path) for a positive path follows its binary digits from the least significant bit until the leading 1, and always terminates for non-negative paths.", "quantifier": "every value, every path", "why_tests_cant": "All paths and nestings.", "anchors": ["list_access.go:WalkList", "prim_list_access.go:GeneralCarCdrImpl"]}
{"id": "C14", "title": "Flattening", "statement": "(flatten l) splices each element list one level in order; (flatten* l) returns exactly the non-list leaves of l in left-to-right order; both terminate on every finite list.", "quantifier": "every finite nested list", "why_tests_cant": "Arbitrary nesting depth.", "anchors": ["data.go:Flatten", "data.go:RecursiveFlatten"]}
{"id": "C15", "title": "Print/read round trip", "statement": "Parsing the printed form of a readable value (integers, booleans, strings, symbols, byte arrays, proper and dotted lists of those) gives a value equal in structure to the original.", "quantifier": "every readable value of any depth and size whose strings contain no backslash or control escapes and whose symbols are readable names", "why_tests_cant": "Round-trip over an infinite recursive domain.", "anchors": ["data.go:String", "data.go:escapeQuotes", "parser.go:parseExpression", "tokenizer.go"]}
{"id": "C16", "title": "Reading always terminates and makes progress", "statement": "For every input text, reading an expression finishes, and every token consumed strictly shortens the remaining input; reading all forms of a text therefore finishes with a list of forms or one error.", "quantifier": "every finite character sequence, including malformed text", "why_tests_cant": "Fuzzing samples; a loop needs one unlucky input.", "anchors": ["tokenizer.go:readNextToken", "parser.go:parseExpression", "parser.go:ParseAll"]}
{"id": "C17", "title": "Whitespace and comments between tokens are immaterial", "statement": "Inserting any amount of white space or line comments before a form never changes what is read, and reading a concatenation of separated printed forms gives exactly those forms in order.", "quantifier": "every text, every list of readable values", "why_tests_cant": "Unbounded padding and number of forms.", "anchors": ["tokenizer.go:Tokenizer", "parser.go:ParseAll"]}
{"id": "C18", "title": "String literal escapes", "statement": "Reading a double-quoted literal yields exactly the characters between the quotes with backslash-n read as newline and backslash-c as c; printing then reading any string without backslashes or newlines-as-escapes gives the same string; an unterminated literal yields no value.", "quantifier": "every character sequence", "why_tests_cant": "All strings.", "anchors": ["tokenizer.go:readString", "data.go:escapeQuotes"]}
{"id": "C19", "title": "Integer arithmetic is exact modulo 2^64", "statement": "For integer arguments (+ ..), (- ..), (* ..), succ and pred return the mathematically exact result reduced to a signed 64-bit integer; hence + and * do not depend on argument order, and results are exact whenever they fit.", "quantifier": "every finite sequence of 64-bit integers", "why_tests_cant": "Overflow corners and argument permutations are unbounded.", "anchors": ["prim_math.go:addInts", "prim_math.go:MultiplyImpl", "prim_math.go:SubtractImpl"]}
{"id": "C20", "title": "Quotient, remainder and modulo", "statement": "For a non-zero divisor, a = b*(quotient a b) + (remainder a b) modulo 2^64, the remainder has the sign of the dividend and smaller magnitude than the divisor; a zero divisor is reported as an error and never crashes.", "quantifier": "every pair of 64-bit integers", "why_tests_cant": "2^128 pairs, including the most negative integer.", "anchors": ["prim_math.go:QuotientImpl", "prim_math.go:RemainderImpl"]}
{"id": "C21", "title": "Integer comparison", "statement": "(< a b), (> a b), (<= a b), (>= a b) agree with the mathematical order of the integers a and b.", "quantifier": "every pair of 64-bit integers", "why_tests_cant": "Comparison goes through 32-bit floats; failing pairs are sparse for small numbers and dense for large ones.", "anchors": ["prim_relative_logical.go:LessThanImpl", "prim_relative_logical.go:GreaterThanImpl"]}
{"id": "C22", "title": "Integer power", "statement": "(pow b e) for integers b and e>=0 is b^e reduced to 64 bits.", "quantifier": "every base and non-negative exponent", "why_tests_cant": "Square-and-multiply loop correctness needs an invariant.", "anchors": ["prim_math.go:PowImpl"]}
{"id": "C23", "title": "interval", "statement": "(interval a b s) with a step of matching sign lists a, a+s, a+2s, .. up to but not past b, in order, and a step of the wrong sign is an error; the result is strictly monotone and every element lies between a and b.", "quantifier": "every start, end and step for which no 64-bit overflow occurs", "why_tests_cant": "Loop bounds for all triples.", "anchors": ["prim_math.go:IntervalImpl"]}
{"id": "C24", "title": "Number to text and back", "statement": "(string->number (number->string n b) b) = n for every base 2, 8, 10 and 16; the text is the numeral of the number in that base (lower-case digits, no leading zero, a minus sign for negative numbers); distinct integers have distinct texts.", "quantifier": "every 64-bit integer and supported base", "why_tests_cant": "Every digit count and sign.", "anchors": ["prim_math.go:NumberToStringImpl", "prim_math.go:StringToNumberImpl"]}
{"id": "C25", "title": "min, max, abs, sign and parity predicates", "statement": "min/max of integers return an element of the argument list that bounds all the others; even?/odd? are complementary and agree with divisibility; zero?/positive?/negative? partition the integers; abs returns the magnitude.", "quantifier": "every non-empty list of 64-bit integers", "why_tests_cant": "All lists.", "anchors": ["prim_math.go:MinImpl", "prim_math.go:MaxImpl", "prim_math.go:EvenImpl"]}
{"id": "C26", "title": "Bit operations", "statement": "binary-and/or/not act bitwise on all 64 bits; left-shift by n multiplies by 2^n modulo 2^64 and right-shift by n divides by 2^n rounding down for non-negative values; shifts by 64 or more give 0.", "quantifier": "every 64-bit pattern and every shift count", "why_tests_cant": "2^128 operand pairs.", "anchors": ["prim_binary.go"]}
{"id": "C27", "title": "Byte arrays and lists convert faithfully", "statement": "(bytearray->list (list->bytearray l)) = l for every list of integers 0..255, any other element is an error, and (list->bytearray (bytearray->list b)) equals b.", "quantifier": "every list / byte array", "why_tests_cant": "All lengths and contents.", "anchors": ["prim_bytearray.go:ListToBytesImpl", "prim_bytearray.go:BytesToListImpl"]}
{"id": "C28", "title": "Byte replacement and extraction", "statement": "replace-byte returns a copy differing only at the index and leaves its argument unchanged; replace-byte! changes only that index of the argument; extract-byte reads it back; an index outside 0..len-1 or a value outside 0..255 is an error with no effect; extract-bytes of n bytes at i returns bytes i..i+n-1 or an error.", "quantifier": "every byte array, index, count and value, every set of aliases", "why_tests_cant": "Aliasing and 64-bit boundary arithmetic.", "anchors": ["prim_bytearray.go:ReplaceByteImpl", "prim_bytearray.go:ReplaceByteBangImpl", "prim_bytearray.go:ExtractByteImpl", "prim_bytearray.go:ExtractBytesImpl"]}
{"id": "C29", "title": "append-bytes copies, append-bytes! extends", "statement": "append-bytes returns the concatenation and leaves its first argument unchanged through every alias; append-bytes! makes every alias of the first argument see the concatenation.", "quantifier": "every byte array, every argument sequence, every alias", "why_tests_cant": "Aliasing of backing arrays.", "anchors": ["prim_bytearray.go:AppendBytesImpl", "prim_bytearray.go:AppendBytesBangImpl"]}
{"id": "C30", "title": "Primitive argument-count declarations are enforced", "statement": "A primitive declared with a count specification (n, n|m, (a,b), >=n, *) accepts an argument count exactly when one alternative of the specification allows it, and otherwise returns an error without running or evaluating any argument.", "quantifier": "every specification in the documented grammar, every argument count", "why_tests_cant": "All specifications times all counts.", "anchors": ["primitive_function.go:parseNumArgs", "primitive_function.go:checkArgumentCount"]}
{"id": "C31", "title": "Procedure parameters are bound positionally", "statement": "Calling a user procedure with exactly as many arguments as parameters binds the i-th parameter to the i-th argument value; with a rest parameter, the remaining arguments are collected in order; any other count is an error and the body does not run.", "quantifier": "every parameter list, every argument list", "why_tests_cant": "All arities, including rest-only parameter lists.", "anchors": ["function.go:computeRequiredArgumentCount", "function.go:makeLocalBindings"]}
{"id": "C32", "title": "Arguments are evaluated once, left to right, stopping at the first error", "statement": "A call to a procedure or ordinary primitive evaluates each argument expression exactly once from left to right in the caller's environment; if one fails, later ones are not evaluated and the callee does not run.", "quantifier": "every call expression, every environment and argument effects", "why_tests_cant": "Effects of unevaluated arguments are only visible over all executions.", "anchors": ["primitive_function.go:Apply", "function.go:makeLocalBindings"]}
{"id": "C33", "title": "Lexical scoping", "statement": "A free variable of a procedure refers to the binding visible where the procedure was created, not where it is called; bindings made inside a call are invisible to the caller after it returns.", "quantifier": "every environment chain, procedure and call site", "why_tests_cant": "All call sites/environment shapes.", "anchors": ["function.go:internalApply", "symbol_table_frame.go:NewSymbolTableFrameBelow", "symbol_table_frame.go:FindBindingFor"]}
{"id": "C34", "title": "set! changes exactly the nearest visible binding", "statement": "(set! x e) changes the innermost visible binding of x and nothing else; if x is not visible it is an error and nothing changes; it never creates a binding.", "quantifier": "every environment chain with any shadowing", "why_tests_cant": "Arbitrary chains and shadowing.", "anchors": ["symbol_table_frame.go:SetTo", "prim_mutators.go:SetVarImpl"]}
{"id": "C35", "title": "Protected bindings never change", "statement": "No sequence of define and set! operations changes the value of a binding that was made protected (such as the built-in names).", "quantifier": "every sequence of binding operations", "why_tests_cant": "Histories are unbounded.", "anchors": ["symbol_table_frame.go:BindTo", "symbol_table_frame.go:SetTo", "symbol_table_frame.go:BindToProtected", "binding.go"]}
{"id": "C36", "title": "Restricted environments cannot run restricted primitives", "statement": "In an environment marked restricted, and in every environment created below it afterwards, calling a restricted primitive always returns an error before any argument is evaluated, and the mark is never cleared.", "quantifier": "every program/environment history", "why_tests_cant": "Sandboxing is a safety property of all executions.", "anchors": ["primitive_function.go:Apply", "symbol_table_frame.go:NewSymbolTableFrameBelow", "prim_environment.go:RestrictEnvironmentImpl"]}
{"id": "C37", "title": "Conditional and logical forms evaluate only what they select", "statement": "if/cond/case/when/unless/and/or evaluate their tests in order, stop at the first decisive one, evaluate only the selected branch, and return its value; unselected expressions have no effect.", "quantifier": "every form, every environment, every effectful subexpression", "why_tests_cant": "Non-evaluation is a property of all executions.", "anchors": ["prim_special_forms.go", "prim_relative_logical.go:BooleanAndImpl"]}
{"id": "C38", "title": "Local binding forms", "statement": "let evaluates all initialisers in the outer environment before binding; let* and letrec make each binding visible to later ones; none of them changes or adds bindings in the enclosing environment; the value is that of the last body form.", "quantifier": "every binding list, body and environment", "why_tests_cant": "Scope visibility over all nestings.", "anchors": ["prim_special_forms.go:LetImpl", "prim_special_forms.go:bindLetLocals"]}
{"id": "C39", "title": "begin and procedure bodies run in order and stop at the first error", "statement": "Body forms run in order in one environment; the value is the last form's; on the first error the rest do not run and the error is returned, wrapped but never discarded.", "quantifier": "every body", "why_tests_cant": "All lengths/effects.", "anchors": ["prim_special_forms.go:BeginImpl", "function.go:internalApply"]}
{"id": "C40", "title": "do loops", "statement": "(do ((v init step)..) (test res..) body..) evaluates inits in the outer environment, and on each iteration first the test, then, if false, the body in order, then all steps with the old values, rebinding simultaneously; errors in test, body or steps end the loop with that error.", "quantifier": "every loop and every number of iterations", "why_tests_cant": "Number of iterations unbounded.", "anchors": ["prim_special_forms.go:DoImpl"]}
{"id": "C41", "title": "Errors are values that only on-error intercepts", "statement": "An error raised by any subexpression that is evaluated in an expression position propagates to the caller unless an enclosing on-error catches it; on-error runs its handler exactly when the guarded expression fails, with the message, and its result then is the handler's.", "quantifier": "every expression and evaluation", "why_tests_cant": "Propagation along every path.", "anchors": ["data.go:evalHelper", "prim_system.go:OnErrorImpl"]}
{"id": "C42", "title": "Evaluation is deterministic and total up to recursion depth", "statement": "Evaluating the same expression in the same state always gives the same result and final state, and giving the interpreter more depth never changes a finished result.", "quantifier": "every expression, state and depth", "why_tests_cant": "All programs.", "anchors": ["data.go:evalHelper", "data.go:Apply"]}
{"id": "C43", "title": "Quasiquotation", "statement": "`t with no unquote in t evaluates to t itself; ,e at level one is replaced by the value of e, and ,@e splices the elements of the list value of e in place; nested quasiquotes keep inner unquotes.", "quantifier": "every template, environment", "why_tests_cant": "All template shapes and nestings.", "anchors": ["prim_macros.go:processQuasiquoted"]}
{"id": "C44", "title": "Macros receive unevaluated arguments", "statement": "A macro call binds parameters to the argument expressions themselves without evaluating any, evaluates the body in the macro's environment to get an expansion, and evaluates the expansion once in the caller's environment.", "quantifier": "every macro and call", "why_tests_cant": "All calls.", "anchors": ["macro.go:Expand", "macro.go:internalApply"]}
{"id": "C45", "title": "Frame slot lookup and inheritance", "statement": "Getting a slot returns the frame's own value if it has the slot, otherwise that of an ancestor reached through parent slots; a slot is reported present exactly when the frame or some reachable ancestor has it locally; lookup terminates even when parent links form cycles.", "quantifier": "every graph of frames, including cyclic ones, any traversal order of parents", "why_tests_cant": "Arbitrary graphs and nondeterministic map order.", "anchors": ["frame.go:hasSlotHelper", "frame.go:getHelper", "frame.go:Parents"]}
{"id": "C46", "title": "Frame mutation is local", "statement": "Setting or removing a slot affects only that frame's own slot: every other slot of it and every other frame are unchanged; after a set, get returns the value; after a remove, lookup falls back to ancestors.", "quantifier": "every frame graph", "why_tests_cant": "All graphs.", "anchors": ["frame.go:Set", "frame.go:Remove"]}
{"id": "C47", "title": "Cloning a frame", "statement": "A clone has the same slots and values as the original at the time of cloning, and later slot changes in either are invisible in the other.", "quantifier": "every frame and every later sequence of set/remove operations", "why_tests_cant": "Histories are unbounded.", "anchors": ["frame.go:Clone", "prim_frame.go:CloneImpl"]}
{"id": "C48", "title": "Methods see their receiver", "statement": "Sending a message finds the slot function in the receiver or its ancestors, runs it with self bound to the receiver (not the ancestor that defined it), and errors if there is no such slot or it is not a function.", "quantifier": "every frame graph, message and arguments", "why_tests_cant": "Dispatch over all graphs.", "anchors": ["prim_frame.go:SendImpl", "function.go:internalApply"]}
{"id": "C49", "title": "Symbol identity", "statement": "Two reads of the same name always give the same symbol object, also when done concurrently.", "quantifier": "every interleaving of any number of concurrent interning calls", "why_tests_cant": "Schedules.", "anchors": ["symbol_table_frame.go:Intern"]}
{"id": "C50", "title": "Generated symbols are fresh", "statement": "No two gensym calls, with any prefixes and from any goroutines, return symbols with the same name.", "quantifier": "every sequence/interleaving of calls with any prefixes", "why_tests_cant": "Schedules and prefixes are unbounded.", "anchors": ["prim_system.go:gensymHelper"]}
{"id": "C51", "title": "Channels deliver each value once, in order", "statement": "The values received from a channel are a prefix of the values sent, in send order, each once; a buffered channel never holds more than its capacity; try-write succeeds exactly when a slot or receiver is available.", "quantifier": "every interleaving of senders and receivers, every capacity", "why_tests_cant": "Schedules.", "anchors": ["prim_channel.go"]}
{"id": "C52", "title": "Channel closing", "statement": "After close, values already sent are still delivered, then reads report closed; writing to or closing a closed channel is an error and never a crash.", "quantifier": "every interleaving", "why_tests_cant": "Schedules.", "anchors": ["prim_channel.go:CloseChannelImpl", "prim_channel.go:ChannelWriteImpl"]}
{"id": "C53", "title": "Forked process results are joined at most once", "statement": "join returns the value of the forked procedure; across all concurrent join calls on one process at most one gets the value and every other gets an error; the forked goroutine never blocks forever on delivering its result.", "quantifier": "every interleaving of any number of joiners", "why_tests_cant": "Schedules.", "anchors": ["prim_concurrency.go:ForkImpl", "prim_concurrency.go:JoinImpl"]}
{"id": "C54", "title": "Scheduled code respects abandon and reset", "statement": "A scheduled procedure runs at most once per schedule call; after a successful abandon that precedes the timer it never runs; reset-timeout restarts the timer; abandon and reset on a finished process never block or crash.", "quantifier": "every interleaving of timer, abandon and reset", "why_tests_cant": "Schedules/timing.", "anchors": ["prim_concurrency.go:ScheduleImpl", "prim_concurrency.go:AbandonImpl", "prim_concurrency.go:ResetTimeoutImpl"]}
{"id": "C55", "title": "Wake-ups are not lost", "statement": "A wake issued to a process, before or during its sleep, ends that sleep (or the next one) early; several wakes before the process sleeps count as one; wake never blocks.", "quantifier": "every interleaving of wakes and sleeps", "why_tests_cant": "Schedules.", "anchors": ["prim_concurrency.go:WakeImpl", "prim_concurrency.go:ProcSleepImpl"]}
{"id": "C56", "title": "Atomics are linearizable", "statement": "Concurrent atomic adds are never lost: the final value is the initial value plus the sum of all addends modulo 2^64; compare-and-swap succeeds for at most one of the callers racing on the same old value when new differs.", "quantifier": "every interleaving", "why_tests_cant": "Schedules.", "anchors": ["prim_concurrency.go:AtomicAddImpl", "prim_concurrency.go:AtomicCompareAndSwapImpl"]}
{"id": "C57", "title": "JSON round trip through frames", "statement": "Converting a frame-based value made of integers, booleans, strings, non-empty arrays and frames to JSON and back gives an equal value; a JSON document goes to Lisp and back unchanged up to number formatting.", "quantifier": "every such nested value", "why_tests_cant": "Recursive domain.", "anchors": ["json_frame_support.go"]}
{"id": "C58", "title": "String split, join and trimming", "statement": "(string-join (string-split s sep) sep) = s; splitting never yields a piece containing the separator; trimming removes exactly the leading/trailing characters of the given set.", "quantifier": "every string and separator", "why_tests_cant": "All strings.", "anchors": ["prim_string.go:StringSplitImpl", "prim_string.go:StringJoinImpl", "prim_string.go:StringTrimImpl"]}
{"id": "C59", "title": "Substrings and prefix/suffix tests", "statement": "(substring s i j) for 0<=i<=j<=length is the slice; out-of-range indices are errors; (substring? a b), string-prefix?, string-suffix? are true exactly when such a decomposition exists.", "quantifier": "every string and index", "why_tests_cant": "All strings/indices.", "anchors": ["prim_string.go:SubstringImpl", "prim_string.go:SubstringpImpl"]}
{"id": "C60", "title": "Sort", "statement": "(sort l less) returns a permutation of l without changing l, ordered by less when less is a strict weak order; if less raises an error the error is returned.", "quantifier": "every list and comparison procedure", "why_tests_cant": "All lists and comparators.", "anchors": ["prim_list_manipulation.go:SortImpl"]}
{"id": "C61", "title": "String comparison is one total order", "statement": "string=?, string<?, string>?, string<=? and string>=? of two strings always answer, and their answers agree with a single strict total order (byte by byte, a proper prefix first).", "quantifier": "every pair/triple of strings", "why_tests_cant": "Unboundedly many strings, including ones that are not valid UTF-8; transitivity relates triples.", "anchors": ["prim_string.go:StringLessThanImpl", "prim_string.go:StringEqualImpl"]}
{"id": "C62", "title": "In-place list updates write exactly one cell", "statement": "set-car!, set-cdr! and set-nth! write exactly one cell: every list sharing that cell sees the change at that place, every other list is unchanged; a target that is not a pair is an error.", "quantifier": "every heap, cell, list and index", "why_tests_cant": "Aliasing depends on the whole heap.", "anchors": ["prim_mutators.go:SetCarImpl", "prim_mutators.go:SetCdrImpl", "list_access.go:SetNth"]}
{"id": "C63", "title": "RemoveFromListBang unlinks the first match", "statement": "RemoveFromListBang removes exactly the first matching element, writing at most the cell before it; without a match nothing is written.", "quantifier": "every heap, list and comparison", "why_tests_cant": "Aliasing depends on the whole heap.", "anchors": ["data.go:RemoveFromListBang"]}
{"id": "C64", "title": "Arithmetic with floats", "statement": "When at least one argument of + - * / is a float, every argument is converted to the nearest float32 and the operations are the correctly rounded float32 operations, applied from left to right; dividing by a float zero is an error; an argument that is not a number is an error.", "quantifier": "every finite sequence of integers and floats with at least one float", "why_tests_cant": "2^32 floats per argument, rounding corners, any number of arguments.", "anchors": ["prim_math.go:anyFloats", "prim_math.go:addFloats", "prim_math.go:subtractFloats", "prim_math.go:multiplyFloats", "prim_math.go:quotientFloats"]}
{"id": "C65", "title": "The reader accepts a stated grammar and gives each text its value", "statement": "There is a grammar of texts, stated independently of the tokenizer and the parser (decimal, negative, hexadecimal 0x.. and #x.., binary #b.., float, string and symbol literals, #t and #f, the four reader macros, lists, dotted lists, byte arrays and frame literals, with white space and comments between), such that: a form at the front of any text is read as the value the grammar gives it and reading continues right after it; a text of forms is read as exactly their values without error; the grammar is unambiguous; and a text that begins with a numeral outside int64, a radix prefix without digits, an unknown # form, an illegal character, an unclosed list, byte array or frame, a byte array element that is not a byte, symbol or list, or a second form after a dotted tail, at any nesting depth, gives an error after exactly the forms before it.", "quantifier": "for all texts of the grammar and all broken texts, of any length and nesting depth, whatever text follows", "why_tests_cant": "Texts are unbounded in length and nesting, and every pair of adjacent constructs interacts through the tokenizer's one character of lookahead.", "anchors": ["parser.go:20-68", "parser.go:70-108", "parser.go:110-167", "parser.go:169-197", "parser.go:199-291", "parser.go:299-311", "tokenizer.go:99-193", "tokenizer.go:227-323"]}
{"id": "C66", "title": "The frame primitives called from Lisp do exactly what they say", "statement": "A call of make-frame with alternating slot names and values returns a new frame with the value given last for each name and changes nothing else; an odd number of arguments or a key that is not a slot name is an error with no effect. has-slot?, get-slot, get-slot-or-nil answer according to inheritance through the parents and change nothing; set-slot! changes exactly one slot of exactly one frame and returns the value; remove-slot! removes exactly the own slot and says whether it was there; clone returns a new frame with the same slots; an argument that is not a frame or not a slot name is an error without effect; send-super runs the method found through the parents with the receiver as self and is an error outside a method or when there is none.", "quantifier": "for all program states, frame graphs, slot names, values and argument expressions", "why_tests_cant": "Frame graphs, slot tables and argument expressions are unbounded, and absence of side effects is a statement about everything else in the state.", "anchors": ["prim_frame.go:32-146", "prim_frame.go:176-219", "prim_frame.go:329-337", "frame.go"]}
{"id": "C67", "title": "Library functions called from Lisp do what a manual says", "statement": "For the arithmetic, comparison, bit, list, access, set, association list and type primitives there is a manual, stated on argument values and outcomes only. Every Lisp expression whose operator evaluates to such a primitive and whose arguments evaluate to values covered by the manual has an outcome the manual allows, and leaves the state as it was after the arguments were evaluated; arguments of the wrong type are errors; a number of arguments that the primitive does not take is an error before any argument is evaluated.", "quantifier": "for all program states, environments and argument expressions, all argument values covered by the manual, all counts", "why_tests_cant": "Expressions, states and argument values are unbounded, and about 180 primitives times all counts are claimed at once.", "anchors": ["primitive_function.go:Apply", "prim_math.go", "prim_relative_logical.go", "prim_binary.go", "prim_list_manipulation.go", "prim_list_access.go", "prim_list_set.go", "prim_alist.go", "prim_type_predicates.go"]}
{"id": "C68", "title": "apply passes exactly the given values and the elements of the list", "statement": "(apply f a ... l) calls f with the values a ... followed by the elements of the list l, without evaluating them again; a first argument that is not a procedure or a last argument that is not a list is an error.", "quantifier": "for all procedures, values, lists and program states", "why_tests_cant": "Lists and values are unbounded.", "anchors": ["prim_special_forms.go:ApplyImpl", "data.go:QuoteAll", "primitive_function.go:ApplyWithoutEval", "function.go:ApplyWithoutEval"]}
{"id": "C69", "title": "Primitives that take a procedure make exactly the specified calls", "statement": "map, for-each, any, every, the folds and reductions, filter, remove, find, find-tail/memp and partition, called from Lisp with a procedure and lists, end exactly when the specified sequence of calls of the procedure ends, in the state after the last call, with a value determined by the answers; a failing call ends them with that failure, and calls after the deciding one are not made. A first argument that is not a procedure, or a collection that is not a list, is an error before any call.", "quantifier": "for all procedures (user functions and primitives), lists, program states and outcomes of the calls", "why_tests_cant": "Lists, procedures and their effects on the state are unbounded; absence of later calls is a statement about all executions.", "anchors": ["prim_list_functions.go", "prim_list_manipulation.go:partitionByPredicate", "data.go:ApplyWithoutEval"]}
{"id": "C70", "title": "Threading forms pass each value to the next step", "statement": "(-> x step ...) evaluates x and then each step once, in order, with the value of the step before as its first argument, (f a ...) standing for (f value a ...) and f for (f value); its value is that of the last step. (=> x step ...) evaluates each step with the value of x as first argument and returns that value. The first step that fails ends the form. The value passed is the value itself, not evaluated again.", "quantifier": "every number and shape of steps, every value and every evaluation", "why_tests_cant": "Steps can be any expressions with any effects, and the value any data.", "anchors": ["prim_special_forms.go:ChainImpl", "prim_special_forms.go:TapImpl"]}
{"id": "C71", "title": "The host crashes only in the listed ways", "statement": "Evaluating Lisp code never crashes the host process, except that: a call of panic! outside a restricted environment, % or modulo of an integer by zero, apply of a procedure with no further argument, take or drop of a negative number of bytes, string-capitalize of the empty string, substring from a negative start, interval over more numbers than memory can hold or that never reaches its end, executed anywhere in the program, always do; and a frame whose parent slot holds something that is not a frame can. In particular every reference the interpreter follows exists.", "quantifier": "for all programs, all states reachable from the initial one and all executions of the modelled primitives", "why_tests_cant": "Absence of a crash is a statement about every program and every state; nil pointers and index errors hide in rare combinations.", "anchors": ["data.go:evalHelper", "data.go:ApplyWithoutEval", "primitive_function.go:Apply", "function.go:internalApply", "prim_math.go:RemainderImpl", "prim_system.go:PanicImpl", "prim_special_forms.go:ApplyImpl", "prim_list_access.go", "prim_string.go:StringCapitalizeImpl", "prim_string.go:SubstringImpl", "prim_math.go:IntervalImpl"]}
{"id": "C72", "title": "Evaluating a text evaluates its forms", "statement": "Evaluating a text reads and evaluates its forms one after the other in the given environment. The value is that of the last form; the first form that fails ends the evaluation with its error, and a syntax error is reported when it is reached, all forms before it having been evaluated. Every form of a well-formed text is evaluated.", "quantifier": "for all texts of the grammar, well-formed or broken, all states and all outcomes", "why_tests_cant": "Texts, forms and their effects are unbounded.", "anchors": ["parser.go:ParseAndEvalAllInEnvironment", "parser.go:ParseAndEvalInEnvironment"]}
{"id": "C73", "title": "format renders its control string", "statement": "format replaces every directive of its control string by the text it stands for: arguments as displayed or as written, padded with spaces to the given width on the side the directive's own modifier names, newlines and tildes as often as asked, escaped line ends with the blanks after them dropped; all other bytes stand for themselves. The number of a directive is none, digits, the number of arguments left or the next argument. Too many or too few arguments, a width that is no integer, and a directive that does not exist or is cut off are errors.", "quantifier": "for all control strings, all argument lists and all printed forms of the arguments", "why_tests_cant": "Control strings, widths and arguments are unbounded; the modifier of one directive interacts with all later ones.", "anchors": ["prim_io.go:FormatImpl"]}
{"id": "C74", "title": "JSON round trip through association lists", "statement": "JsonStringToLisp turns a JSON document into nested lists and association lists that stand for the same thing, whatever the order in which Go traverses maps, and LispToJson turns such values back into a document that stands for the same thing; text that is not JSON is an error.", "quantifier": "for all documents and all Lisp values made of numbers, booleans, strings, lists and association lists, of any depth, and all map iteration orders", "why_tests_cant": "Documents are unbounded and map iteration order is random.", "anchors": ["json_support.go:JsonToLisp", "json_support.go:LispToJson", "json_support.go:JsonStringToLisp"]}
{"id": "C75", "title": "Programs without side effects mean what a textbook says", "statement": "Definitions of functions followed by an expression built from constants, variables, quote, if, cond, and, or, let, the list, comparison and arithmetic primitives and calls of the defined functions, evaluate to the value given by the usual call-by-value semantics with substitution-like variable environments, in which functions see only their parameters; evaluation ends, writes nothing and leaves every binding, frame and counter that existed as it was. A later definition of a name replaces an earlier one; names of primitives cannot be defined.", "quantifier": "for all programs, all expressions that have a value in that semantics, at any depth of recursion, and all interpreter states that hold the program", "why_tests_cant": "Programs, recursion depths and interpreter states are unbounded.", "anchors": ["eval.go:evalHelper", "function.go:internalApply", "prim_special_forms.go:DefineImpl", "symbol_table_frame.go:ValueOfWithFunctionSlotCheck"]}
{"id": "C76", "title": "The shipped programs compute what they claim", "statement": "The text of samples/deriv.lsp loads without error, and afterwards (deriv 'e 'x) returns, for every expression e of integers, variables, two-place sums and products, such an expression for the partial derivative of e by x. With the definitions of lisp/bench.lsp, (fib n) is the n-th Fibonacci number modulo 2^64 and (ack m n) is Ackermann's function.", "quantifier": "for all expressions of any size and all variables; for all n below 2^24; for all m, n whose result is below 2^64", "why_tests_cant": "Expressions and arguments are unbounded; simplification interacts with every shape of expression.", "anchors": ["samples/deriv.lsp", "lisp/bench.lsp"]}
{"id": "C77", "title": "String primitives called from Lisp work on characters", "statement": "In evaluated code, string-split cuts a text at each leftmost occurrence of the separator (or into characters), string-join puts texts together and undoes string-split, the trimming primitives cut exactly the leading and trailing characters in the set, substring?, string-prefix? and string-suffix? answer whether the first text stands inside, before or at the end of the second, the comparisons order texts by the code points of their characters, number->string spells integers, and arguments of other types are errors; although the code works on UTF-8 bytes. string-length and substring count bytes; an empty text given to string-capitalize and a negative start given to substring crash. The interpreter state is unchanged.", "quantifier": "for all texts of any length over all Unicode characters, all integers, all interpreter states and all argument expressions", "why_tests_cant": "Texts are unbounded, and agreement of byte-wise and character-wise search and order is a property of all pairs of characters.", "anchors": ["prim_string.go:StringSplitImpl", "prim_string.go:StringJoinImpl", "prim_string.go:doTrim", "prim_string.go:SubstringImpl", "prim_string.go:StringLessThanImpl", "prim_math.go:NumberToStringImpl"]}
{"id": "C78", "title": "File ports deliver the forms of a file in order and hold what was written", "statement": "Reading a port opened on a file gives the forms in the file one after the other and then the end-of-file object again and again, whatever else the program does in between, as long as the file keeps its text; a file opened for output holds what the program sent to the port since, in order, after the old text if it was opened for appending; a call changes a file only by opening it for output or writing to a port open on it; readable values written one per line are read back. An illegal character makes every later read an error. The code breaks the full statement: reading a second port loses input of the first, a symbol __EOF__ in a file looks like its end, and successive writes run together.", "quantifier": "for all file texts, values, numbers of open ports and sequences of port operations, and all buffer sizes of the reader", "why_tests_cant": "Sequences of operations, file texts and buffer boundaries are unbounded, and the loss of input depends on how operations on different ports interleave.", "anchors": ["prim_io.go:ReadImpl", "prim_io.go:OpenOutputFileImpl", "prim_io.go:OpenInputFileImpl", "prim_io.go:WriteImpl", "prim_io.go:WriteStringImpl", "tokenizer.go:NewTokenizerFromFile", "parser.go:ParseObjectFromFileInEnv"]}
{"id": "C79", "title": "Environments are first-class values that show and change exactly their own bindings", "statement": "The environment primitives answer according to which bindings can be seen from an environment (bound?, assigned?, reference-type, lookup, lookup-macro) or are held by it (bound-names, macro-names, bindings: each name once); environment-define binds a name in that environment and nowhere else, environment-assign! changes the visible binding and nothing else, what was defined or assigned is what environment-lookup gives afterwards; make-top-level-environment gives a new environment below Global with exactly the given bindings; eval with an environment is evaluation in that environment and global-eval in Global; anything that is not an environment or not a symbol is refused without effect. The code breaks part of it: environment-definable? is true for protected names, and a call of a global function replaces the top-level environment of the same name.", "quantifier": "for all reachable states, environments, names, values and calls", "why_tests_cant": "Chains of environments, the bindings in them and the calls are unbounded; that nothing else changes is a statement about every environment and every name.", "anchors": ["prim_environment.go", "prim_system.go:EvalImpl", "prim_system.go:GlobalEvalImpl", "symbol_table_frame.go:NewSymbolTableFrameBelow", "symbol_table_frame.go:FindBindingFor"]}
{"id": "C80", "title": "sort in programs: a permutation, in order, calling the procedure on pairs of elements only", "statement": "A call of sort with a list and a procedure does nothing but call the procedure with two elements of the list at a time; when it returns, every comparison returned and the result is a permutation of the elements; when a comparison fails, sort ends with that error and nothing is called after it; when the comparison answers according to a strict weak order, the result is in that order, whatever else the procedure does; in particular < and > sort integers exactly representable as 32-bit floats and string<? sorts texts by their characters. Anything but a list and a procedure is refused. The code breaks the claim for large integers, which < compares as 32-bit floats.", "quantifier": "for all lists, procedures, states and sorting programs of the library", "why_tests_cant": "The comparison is an arbitrary procedure with side effects and the order in which a library compares elements is not fixed.", "anchors": ["prim_list_manipulation.go:SortImpl", "prim_list_manipulation.go:sortCompare"]}
{"id": "C81", "title": "Rounding, powers, intervals and reading numerals in programs", "statement": "A call of floor or ceiling gives the nearest whole number not above or not below its argument, a zero keeping its sign; inf? and nan? recognise infinities and undefined floats; pow of integers is the power modulo 2^64 (1 for a negative exponent); the functions of Go's package math are applied to the argument as a 32-bit float; interval gives the arithmetic progression from its start as far as its end allows, and objects to a step that leads away or is not an integer; string->number gives the value of the numeral a text begins with, after white space and an optional sign, in base 2, 8, 10 or 16, objects if there is none or it does not fit in 64 bits, and reads back what number->string wrote; arguments that are not numbers are refused. No call changes the state.", "quantifier": "for all argument values, bases, texts and states (intervals below 2^44 elements that do not end at the limits of int64)", "why_tests_cant": "The claims range over all floats, integers and texts; the roundings at the edge of the 24-bit significand, the sign of zero and partial numerals are where samples miss.", "anchors": ["prim_math.go:FloorImpl", "prim_math.go:CeilingImpl", "prim_math.go:PowImpl", "prim_math.go:IntervalImpl", "prim_math.go:StringToNumberImpl", "prim_math.go:IsInfImpl", "prim_math.go:IsNaNImpl", "prim_math.go:makeUnaryFloatFunction"]}
{"id": "C82", "title": "Slot listings, method calls with argument lists, definitions and output in programs", "statement": "frame-keys gives the names and frame-values the values of a frame's own slots, every slot exactly once; apply-slot calls the one function a frame has or inherits under a name, with the frame as its frame, with the given values followed by the elements of the last argument, and evaluates no argument when there is no such function; apply-slot-super does the same with what the parents of the current frame have and is refused outside a method; definition-of gives a definition with the function's name, parameters and body whose evaluation makes such a function again; str and write-line give and output the values' texts one after the other; error fails with the printed value; intern gives the symbol of that name. Nothing else changes.", "quantifier": "for all frames, functions, argument values, map orders, environments and states reachable in a session", "why_tests_cant": "Map iteration order is random and inheritance is arbitrary; a test sees a few orders of a few frames, while the claims are about every order, every hierarchy and every argument list.", "anchors": ["prim_frame.go:FrameKeysImpl", "prim_frame.go:FrameValuesImpl", "prim_frame.go:ApplySlotImpl", "prim_frame.go:ApplySlotSuperImpl", "prim_special_forms.go:DefinitionOfImpl", "prim_system.go:MakeStringImpl", "prim_system.go:WriteLineImpl", "prim_system.go:ErrorImpl", "prim_system.go:InternImpl"]}
{"id": "C83", "title": "Frames as values: comparing, measuring and copying", "statement": "The comparisons (==, eq?, eqv?, equal?, != and neq?) tell whether two values are the same, where two frames are the same if they are one frame, or have as many slots and each slot of the first is the same as the slot of that name in the second; this is an equivalence. length of a frame is the number of its own slots. copy gives a copy that is the same as the original and in which every frame is new, however deep, so that no change of one shows in the other; it changes nothing that was there. general-car-cdr takes the cars and cdrs its path codes and refuses path zero.", "quantifier": "for all values, frames nested to any finite depth, tables of frames, environments and states", "why_tests_cant": "Comparison and copying recurse through frames, lists and slots of any shape; asymmetric and cyclic cases need particular combinations of missing, nil and nested slots that samples do not hit.", "anchors": ["data.go:IsEqual", "data.go:Length", "data.go:Copy", "prim_list_manipulation.go:CopyImpl", "prim_list_access.go:GeneralCarCdrImpl"]}
{"id": "C84", "title": "Byte arrays in programs", "statement": "list->bytearray (also list-to-bytearray) makes an array of the integers 0 to 255 and arrays in a non-empty list, bytearray->list gives its bytes as integers, extract-byte the byte at an index, replace-byte a new array that differs at one index, append-bytes the array followed by the given bytes and arrays (one by one or in one list), extract-bytes the part of a given length from an index. Every other call of these primitives is refused, and no call changes anything. Making an array of a list and listing it gives the list back.", "quantifier": "for all byte arrays, indices, lengths, argument lists, environments and states", "why_tests_cant": "Index and length arithmetic goes wrong only at the ends of the 64-bit range and for particular shapes of nested lists; the claims are about all of them.", "anchors": ["prim_bytearray.go:ListToBytesImpl", "prim_bytearray.go:BytesToListImpl", "prim_bytearray.go:ReplaceByteImpl", "prim_bytearray.go:ExtractByteImpl", "prim_bytearray.go:AppendBytesImpl", "prim_bytearray.go:ExtractBytesImpl"]}
{"id": "C85", "title": "Output of programs", "statement": "write-string writes a string, write the printed form of a value, newline a line end, and format with #t the rendered control string, each to standard output exactly once and after everything written before; format with #f returns that text instead and writes nothing. The text of format is that of its control string with each directive replaced by the rendering of the next arguments. Arguments that are no strings or no ports, missing and surplus arguments and unknown directives are refused and nothing is written. What has been written stays written, however the program ends, and no call crashes the host.", "quantifier": "for all control strings, argument values, environments, states and programs", "why_tests_cant": "Control strings nest counts, modifiers and directives freely; a test fixes a few strings, while the claims cover all of them and the order of all output of any program.", "anchors": ["prim_io.go:WriteStringImpl", "prim_io.go:WriteImpl", "prim_io.go:NewlineImpl", "prim_io.go:FormatImpl"]}
{"id": "C86", "title": "Loading source files", "statement": "load evaluates all forms of a file, in order, in the global environment, and returns the value of the last one; an error of a form ends it there with that error and keeps the effects of the forms before; a file that cannot be read, a text that is broken after some complete forms, and a name that is no string are errors.", "quantifier": "for all files, texts, environments and states", "why_tests_cant": "The claim is about every text of every length and every sequence of effects; a test loads a few files.", "anchors": ["prim_system.go:LoadFileImpl", "parser.go:ProcessFile", "parser.go:ParseAndEvalAllInEnvironment"]}
{"id": "C87", "title": "Atomic integers in programs", "statement": "atomic makes a new integer cell that nothing referred to before, with the given value or 0; atomic-load reads it, atomic-store! sets it, atomic-add! adds to it modulo 2^64 and returns the sum, atomic-swap! sets it and returns the value before, atomic-compare-and-swap! sets it if it holds the expected value and tells whether it did. A call works on its own cell only, every other cell keeps its value, and cells never go away. Every other call is refused and changes nothing; no call crashes.", "quantifier": "for all cells, integers, programs of one thread, environments and states", "why_tests_cant": "The claims are about all 64-bit values, any number of cells and every state a session can reach; a test fixes a few.", "anchors": ["prim_concurrency.go:AtomicImpl", "prim_concurrency.go:AtomicLoadImpl", "prim_concurrency.go:AtomicStoreImpl", "prim_concurrency.go:AtomicAddImpl", "prim_concurrency.go:AtomicSwapImpl", "prim_concurrency.go:AtomicCompareAndSwapImpl"]}
{"id": "C88", "title": "Functions as values", "statement": "The interpreter computes the values of the textbook language in which functions are values: an expression whose value a big-step semantics with closures and without state determines has exactly one outcome in the interpreter, which represents that value; nothing that was there changes. The language has variables, quoted data, lambda, if, cond, and, or, let, do loops whose variables hold no closures, calls of named functions, of closures and of built-in procedures, and map, filter, fold-left and fold-right with functions given by the program. A closure keeps the variables of the place where it was written, however late and from wherever it is called.", "quantifier": "for all expressions, closures, depths of recursion, numbers of rounds, environments and states", "why_tests_cant": "The claim is about all programs of a language and all nestings of closures; a test runs a few programs.", "anchors": ["data.go:evalHelper", "function.go:internalApply", "prim_special_forms.go:LambdaImpl", "prim_special_forms.go:DoImpl", "prim_list_functions.go:MapImpl", "prim_list_functions.go:FilterImpl", "prim_list_functions.go:FoldLeftImpl", "prim_list_functions.go:FoldRightImpl"]}
{"id": "C89", "title": "Benchmark programs with loops and functions as values", "statement": "The programs of lisp/bench.lsp run in the interpreter as their author meant them: (create-n n) is a list of n empty lists; (iterative-div2 l) has every second element of a list of even length, so that lists of 2k empty lists are halved; (deriv e) is an expression for the derivative by x of the function that e stands for, where e is made from integers, variables, sums, differences, products and quotients with any number of operands, at every point where no factor or denominator is zero.", "quantifier": "for all 64-bit n, all lists of even length, all expressions and all points", "why_tests_cant": "The claim is about all expressions, all lists and all real points; a test fixes a few.", "anchors": ["lisp/bench.lsp:deriv", "lisp/bench.lsp:create-n", "lisp/bench.lsp:iterative-div2"]}
{"id": "C90", "title": "Invariants under all interleavings of evaluations", "statement": "However many threads evaluate Lisp code in one interpreter, whatever they evaluate, whenever they start and however their steps interleave: scopes stay a forest with fixed parents, an environment keeps its name and frame, a restricted one stays restricted, a bound name stays bound with its protection mark, a protected binding changes only by environment-assign!, functions keep parameters, body and environment, output is never taken back; two gensyms with one prefix never give the same symbol; each atomic object behaves as an atomic register, so that additions are never lost and of several compare-and-swaps from one old value at most one succeeds; no thread is ever blocked; and a thread alone computes what the evaluator computes.", "quantifier": "for all numbers of threads, all programs, all states and all schedules of any length", "why_tests_cant": "The number of schedules is unbounded and a test run sees one of them; races show up rarely.", "anchors": ["prim_concurrency.go:ForkImpl", "prim_concurrency.go:ScheduleImpl", "symbol_table_frame.go:BindLocallyTo", "prim_system.go:gensymHelper", "prim_concurrency.go:AtomicAddImpl", "prim_concurrency.go:AtomicCompareAndSwapImpl"]}
{"id": "C91", "title": "Threads that assign nothing do not disturb each other", "statement": "A thread whose code assigns to nothing that others use, among threads that do not assign to what it uses, computes the same value as alone, after a bounded number of steps, whatever the schedule; any number of threads that only evaluate such code all end with their values.", "quantifier": "for all expressions without side effects, all programs of the other threads that respect the condition, all numbers of threads, all states and all schedules of any length", "why_tests_cant": "The claim is about all schedules and all programs of the other threads; a test run sees one schedule.", "anchors": ["data.go:Apply", "data.go:evalHelper", "function.go:internalApply", "symbol_table_frame.go:ValueOfWithFunctionSlotCheck", "prim_concurrency.go:ForkImpl"]}
{"id": "C92", "title": "Assignment, local state and macros mean what the environment model of evaluation says", "statement": "For programs with set!, define (also of local procedures), closures, let, do, cond, and, or, begin, calls and macros with a template as body: whenever the environment model of evaluation (frames with variables and a parent, procedures with a frame, nothing else) gives an expression a value and a new memory, the interpreter, in any state that stands for the memory, ends with that value only, in a state that stands for the new memory, and changes nothing outside the frames of the program. In particular a counter made by a procedure over its own variable counts its calls, and does not disturb other counters.", "quantifier": "for all expressions and programs of the language of any size and depth, all memories, all states that stand for them, and all numbers of calls", "why_tests_cant": "A test runs one program from one state; the claim covers every program, with any number of shared and assigned variables, and any history before it.", "anchors": ["prim_mutators.go:SetVarImpl", "prim_special_forms.go:DefineImpl", "prim_special_forms.go:DefmacroImpl", "prim_special_forms.go:DoImpl", "symbol_table_frame.go:SetTo", "symbol_table_frame.go:BindLocallyTo", "function.go:internalApply", "macro.go:internalApply", "data.go:evalHelper"]}
{"id": "C93", "title": "The stream library means infinite sequences, and delayed tails are evaluated once", "statement": "After lisp/streams.lsp is loaded, (stream-ref e i) gives element i of the sequence that e stands for, for every expression e built from the streams of the file (ones, twos, odds, integers, fib: all defined by themselves), their tails, stream-cons, add-streams, scale-stream, partial-sums and stream-enumerate-interval, whatever elements of whatever streams have been asked for before; beyond the end of a finite stream it gives the empty list. In particular element i of integers is i+1 and of fib the i-th Fibonacci number mod 2^64. An expression under delay is evaluated once, however often the promise is forced.", "quantifier": "for all stream expressions of any size, all indices below 2^64, all sequences of earlier requests, all numbers of forcings, and all initial states in which the forms and primitives used have their meaning and the names of the file are free", "why_tests_cant": "A test asks for a few elements of a few streams in one order; the promises are shared and assigned when forced, so each request changes the memory the next one runs in.", "anchors": ["lisp/streams.lsp:memo-proc", "lisp/streams.lsp:delay", "lisp/streams.lsp:stream-cons", "lisp/streams.lsp:stream-ref", "lisp/streams.lsp:add-streams", "lisp/streams.lsp:integers", "lisp/streams.lsp:fib", "prim_mutators.go:SetVarImpl", "macro.go:internalApply"]}
{"id": "C94", "title": "Assertions of the test framework record what they find, once, and nothing else", "statement": "After lisp/testing.lsp is loaded, an assertion evaluates each expression it is given exactly once, in the environment where the assertion stands. If that succeeds, the assertion returns nil and records exactly one pass or exactly one failure with a report of context, label, expression and complaint, a pass precisely if the condition it names holds of the value (assert-true: not false and not nil; assert-false: the opposite; assert-nil: the empty list; assert-not-nil: the opposite; assert-eq: the two values are structurally equal; assert-neq: the opposite), and no variable changes but the counter and the list of reports and what the expression itself changed. If the expression fails, the assertion fails and records nothing. Of the assertions about errors, assert-error records a pass if its expression fails and a failure if it does not, assert-nerror the opposite.", "quantifier": "for all expressions, all values, all states in which the file's definitions are in force, all environments in which its names are not rebound, and all tallies", "why_tests_cant": "The project's tests are written with these assertions: one that passes too easily hides failures in every test that uses it, and the tests cannot show it.", "anchors": ["lisp/testing.lsp:log-pass", "lisp/testing.lsp:log-failure", "lisp/testing.lsp:assert-true", "lisp/testing.lsp:assert-false", "lisp/testing.lsp:assert-nil", "lisp/testing.lsp:assert-not-nil", "lisp/testing.lsp:assert-eq", "lisp/testing.lsp:assert-neq", "lisp/testing.lsp:assert-memq", "macro.go:internalApply", "lisp/testing.lsp:assert-error", "lisp/testing.lsp:assert-nerror", "prim_system.go:OnErrorImpl"]}
{"id": "C95", "title": "A named test runs its assertions in order under its own name, and an error ends only that test", "statement": "After lisp/testing.lsp is loaded, (it label expression ...) with a symbol or a string as label makes the label, as written, the name used in reports, changes nothing else, and then evaluates the expressions in order, once each, in the environment where it stands; it returns the value of the last. If one of them fails, the rest are not evaluated, exactly one error is counted and one report added that names the context and the test, the counts of passes and failures stay as they are, and the test itself returns nil.", "quantifier": "for all labels, all expressions, all values, errors and effects they have, all states in which the file's definitions are in force, all environments in which its names are not rebound, and all tallies", "why_tests_cant": "The macro is what every test of the project runs in; whether it skips, repeats or misattributes assertions is not visible to the assertions themselves.", "anchors": ["lisp/testing.lsp:it", "macro.go:internalApply", "prim_system.go:OnErrorImpl", "lisp/testing.lsp:log-error"]}
{"id": "C96", "title": "A context runs its tests in order, each after a fresh run of the setup in an environment of its own", "statement": "After lisp/testing.lsp is loaded, (context label setup test ...) with a symbol or a string as label makes the label, as written, the name of the context in reports and changes nothing else itself; then, for each test in the order written, it makes a new environment directly below the one where the context stands, evaluates the expressions of the setup there in order and then the test there, once. Nothing that one run of the setup defines is seen by another test. The context returns nil; if the setup fails the test is not run and the context fails.", "quantifier": "for all labels, all setups including the empty one, all lists of tests, all values, errors and effects they have, all states in which the file's definitions are in force, all environments in which its names are not rebound, and all tallies", "why_tests_cant": "The tests themselves run inside the macro: a setup shared between tests, or a test skipped, repeated or run in another's environment, shows up only as other tests passing or failing.", "anchors": ["lisp/testing.lsp:context", "macro.go:internalApply", "prim_list_functions.go:ForEachImpl", "prim_system.go:EvalImpl"]}
