# Formal model of SOM-st/PySOM in Lean 4 — design

Source of truth: `/repo` (Python, read as text, never executed).
Properties: `properties.jsonl`. Status of every property: `MANIFEST.json`. Mutation tests: `seeded/LOG.jsonl`.

## 1. Method

* The model is a set of small total functions under `lean/Verif/Model/`, each with a comment citing the file and
  lines it models and any simplification. Python exceptions are values (`Except Err α` / `Option`), never totalised
  away: an `assert` that fails, an `IndexError`, a `NotImplementedError`, an `AttributeError` are explicit results.
* `lean/Verif/Spec/` has small specifications written without reference to the model's helpers (lists, total maps,
  integers, denotational evaluators).
* `lean/Verif/Lemmas/` has helper lemmas; `lean/Verif/Props/` has the property theorems (named `Cnn_...`) each with an
  `example` showing that its hypotheses are met by a concrete non-trivial case.
* Two runtimes exist for the same source: RPython (translated, 64-bit `int`, `ovfcheck` raises `OverflowError`,
  big integers are `rbigint`) and CPython (`rlib` fallbacks: unbounded `int`, `ovfcheck` is the identity). Where this
  matters the model takes a `Platform` argument and the theorems quantify over it.
* Where the code violates a property, we prove the negation on a concrete witness (`..._violated`) and prove the
  largest part which does hold with the suffix `_partial`. All of these are listed in section 4.

## 2. Plan per property

| id | what is modelled | proof |
|----|------------------|-------|
| C01–C07 | `vmobjects/integer.py`, `biginteger.py`, `rlib/arithmetic.py`, `rlib/llop.py`, `primitives/integer_primitives.py` over `Int` with a platform word size | case analysis + `omega`/integer lemmas; decimal printing by induction on digits |
| C08–C14 | `vmobjects/array.py` in full (six strategies, `_PartialStorage`), array heap for aliasing | refinement to `List Val` by induction over operation lists; invariant of the partially-empty storage |
| C15–C16 | `object_with_layout.py`, `object_layout.py`, `storage_location.py`, `clazz.py` (layout part), reflective primitives | refinement to `Obj → Field → Val` over interleaved histories of many instances |
| C17–C19 | `vmobjects/clazz.py` | invariant "memo table ⊆ true lookup" by induction over lookup sequences |
| C20 | `rlib/min_heap_queue.py` with indices, loop by loop | heap invariant and multiset preservation by induction |
| C21–C23 | `vm/symbols.py`, `vmobjects/symbol.py`, globals of `vm/universe.py` | invariants over histories |
| C24–C25 | `compiler/lexer.py` over character lists | fuel-free termination measure where it terminates, divergence proof where it does not |
| C26–C28 | `compiler/method_generation_context.py`, `compiler/ast/variable.py`, `lexical_scope.py`, frame creation in `interpreter/ast/frame.py`, `interpreter/bc/frame.py` | slot injectivity, read-after-create, induction on nesting |
| C29, C44 | jump encoding/patching, bytecode length table | arithmetic on bytes; `decide` over the whole (finite) opcode table |
| C30, C31, C33, C40, C39 | bytecode generator (`bc/method_generation_context.py`, `bc/bytecode_generator.py`, `bc/parser.py` as a traversal of the syntax tree), interpreter loop | simulation: code generated for an expression pushes the value the source semantics assigns, for all machine states; depth bound by induction |
| C32 | block inlining and adaptation of nested blocks | static resolution of every access is preserved, induction over instruction lists and nesting |
| C34, C50 | AST node `execute` methods as an evaluator over the node tree; call-site specialisation state machine | both evaluators equal the same source semantics |
| C35 | trivial methods of both interpreters | exactly which bodies are recognised; equality with generic execution (bytes, trees) per arity; violations by witness |
| C36 | non-local return: activations, on-stack markers, exceptions | induction over evaluation (fuel) |
| C37, C47 | inline caches, quickening as state machines | cache-coherence invariants over histories |
| C38 | counting loops | loop = map over arithmetic progression, by induction; with a Double as the limit the comparisons are those of binary64 (C75–C77) |
| C41–C43 | string primitives, `rlib/string_stream.py`, `rlib/osext.py`, class path | list lemmas |
| C45, C46 | perform/DNU argument passing, literal arrays | list lemmas, induction over nesting |
| C48–C49 | double and equality primitives, float operations as parameters | case analysis |
| C54–C56 | `vm/universe.py` start and class loading, `class_generation_context.py`, `classdef`, class tables and primitives, as a state monad whose state survives exceptions | invariant over all histories; explicit results of each load; rank/cycle arguments for termination |
| C57 | entry points of all kinds of invokables, senders by number of arguments, the table of all primitives of the VM, `value` of blocks | case analysis over kinds and arities; the whole table by evaluation in the kernel |
| C58 | `classdef` from tokens to class texts, the class the shell makes of a line | soundness and completeness against the grammar, on top of C51 |
| C59 | the scan of the arguments, splitting of the class path and of the program's name, the choice between shell and program | equations for every form of command line, and a proof that these forms are all there are |
| C60 | `raw_input` on the chunks the operating system delivers, the loop of the shell over an abstract evaluator with state | refinement of a session of lines, by induction on the chunks and on the lines |
| C61 | an evaluator in which variables are cells and blocks are closures over them, with and without inlining: without, every block of a conditional or loop gets new cells each time; with it, its variables are cells of the activation around it, made once | simulation by induction on the levels of evaluation, with a map from the cells of one run to those of the other; variables of loop bodies are outside the map and related only after they were assigned |
| C62 | scanner, bytecode parser, name resolution (`find_var`, fields, globals; `add_argument`, `add_local`; literals) and compiler put together; a small specification says what the names of a tree mean | tokens of any text have the shape that makes selectors and arguments agree (induction over the parser); resolution of names by structural induction on trees: numbers are different, indices and levels denote what the names mean; then C31, C32, C44; iff for acceptance |
| C63 | the scanner with `_buf`, `_bufp`, `line_number`, `_chars_read`; the parser's requests to it; `ParseError.__str__` with Python's `%` on a mapping | the scanner refines the one of C24 (function by function); invariant on the position over all sequences of requests; the message by composition over the parts of the format |
| C64 | name resolution of the AST parser (`get_variable`, `get_context_level`, `get_self_read`, fields, globals, literals), composed with the scanner, both parsers, both compilers and C34 | the two resolutions are equal up to the kind of error (structural induction on trees, invariant: `self` is the receiver of the method); the conditions of C34 on the resolved source follow from conditions on the tree; then C34 for methods and whole programs |
| C65 | `dump`, `dump_method`, `dump_bytecode` of both disassemblers, the table of names of the bytecodes | the specification relates a listing to what `decode` (the interpreter) finds at each offset; a case analysis over all opcodes gives one line, the boundaries of compiled code (C33, C44) give all lines, induction on the size of methods gives nested blocks; success is characterised (no trivial block with context); witnesses for trivial methods, empty classes, blocks without context, the AST listing |
| C66 | a machine with objects, blocks, classes, lookup, `doesNotUnderstand:arguments:`, `unknownGlobal:`, `escapedBlock:`, `super`, frames with contexts, non-local returns and primitives that call back, around the methods of both interpreters | determinism by induction on derivations with congruences for both executions, using that blocks have unique identities (proved from the source through inlining); agreement by comparing each interpreter with a language in which increments are messages (error-approximation), and C34 for that language; the primitives' results are a parameter |
| C67 | the machine of C66, whose frames say whether they are running and whether they catch returns, and which has an outcome `lost` wherever a frame or a receiver would be missing | static part: the levels in compiled code fit its nesting (from C32 and C44, through inlining), code made without context needs none, a method whose source has no `^` in blocks has code without non-local returns; dynamic part: an invariant (contexts lead to older frames, every block's code fits its context, every running return has a waiting frame) through all actions, calls, primitives and histories; for the AST interpreter by C66 |
| C68 | the actions of the machine of C66 | equivalences with a small specification of nearest methods, of running code in a new frame and of leaving it; the frames of enclosing methods as relations on contexts |
| C69 | an interpreter of the source (`Spec/Reference`), independent of both compilers | the tree of a method is a translation of its source for every final layout of the frames; inlining absorbs a scope into the frame around it; translations run as the source says (equality at every depth of calls); for bytecode by C34, on the machine by C66 |
| C70 | the machine of C66 against one in which code knows its class (`Spec/Super`); `set_holder` over literals | invariant over states (classes noted in blocks and frames are those of their code), preserved by all actions, primitives and calls; equality of both machines at every depth of calls; blocks that code creates are among the literals |
| C71 | about eighty primitives (numbers, loops, booleans, blocks, objects, arrays, strings, globals, printing) as state machines that call back into the program, on the machine of C66 | equivalence with relations for sequences, choices and loops: by next step of the primitive, by induction on the derivation (`whileTrue:`) or on the number of rounds (counting, arrays); the assumptions of C66, C67, C69 and C70 about primitives and shortcuts are proved for these |
| C72 | the classes that `vm/universe.py` makes from files (C54–C56) as the classes of the running program (C66–C71); the names under which the primitives are installed | invariant of loading and of every step of the start: each class has the name, the methods and the superclass of its file; the chain of superclasses is finite by counting; lookup by induction on it, composed with C68 and C71 |
| C73 | the texts of the class files (C24, C58, C62, C64) as the files of C72, with the bodies compiled for both interpreters in classes with the inherited fields | composition of C58/C62/C64 (texts to methods), C72 (files to classes; its invariant also has the fields), C68 (sending) and C69 (running is evaluating); fields by induction on the chain of superclasses; name, superclass and fields of one class from its text (C73_class) |
| C74 | the model of loading (C54–C56, C72) with the number of slots that each class object got when it was made, and the layouts of C15 | invariant over all operations of the start and of loading (classes of the VM keep class and slots, new ones have as many slots as their class has fields); an object that is the only instance of its class always has the current layout of the class, so that no store fails |
| C75 | binary64 as sign and number of units of 2^-1074, rounding to 53 bits, `round_double`, `int(x)`, `float(i)` | rounding answers the only nearest number (ties to even), by cutting the bits; `n + 0.5` is rounded to the same integer as `n` for all numbers but one; intervals between neighbouring numbers; then as messages of running programs, by the step of the primitive |
| C76 | the comparisons of C04/C48 with the operations of binary64 | small Integers are converted exactly; rounding is monotone and keeps numbers with 53 bits, so it never crosses a Double; then as messages of running programs, by the step of the primitive |
| C77 | `sqrt` by integer square roots of the units | between two squares up to 2^52 the root has distance 2^-27 from the integers, and these bounds are numbers with 53 bits |
| C78 | a heap of nodes with children and parent pointers, `adopt_child`, `replace`, `_specialize`; a run is any list of calls, evaluations of children, replacements and returns | the text read from a node is kept by every replacement (induction on the depth); all children have parents; without recursion the replaced nodes are out of all trees and the parent pointers of the others are right |
| C79 | the machine with its primitives (C66, C71) | a preorder on states that every primitive, every shortcut and the machine itself respect is respected by all runs (induction on the depth of calls, for bytecode and trees); "what lasts" is such a preorder |
| C80 | the primitives on the machine | each message by the one step of its primitive; the outcome and the state afterwards are given exactly; an Integer is read back from its text with the lemmas of C06; for `putAll:` with a block induction on the number of answers that are missing |
| C81 | the two elaborations of C62 and C64 (names, literals, statements) | a relation between texts and sources with resolved names, rule by rule (`Spec/Wording`); induction on the text, with the list of the literals that become objects; then for class files and messages through C64 and C73 |
| C82 | `main.py`, `main_rpython.py`, `main`, `interpret` and `exit` on top of the command line (C59), the start of the VM and the shell | the cases of C59 give what is run; an invariant over all steps of the start shows that it never exits with 0, and that a start that succeeds found the files of all classes of the VM; how the program itself ends is a parameter |
| C83 | `_load_file` and the loop of `readall_from_stream`, which may not end; an open file is any state with a function `read` | induction on what is left of the contents, for every way of dividing them that `Spec/FileRead` allows; the sizes that are asked for stay between 8192 and 4194304 |
| C84 | `execute_method` on the universe of C54–C56 | the hierarchy of C54 gives a finite path of superclasses from the metaclass to Object, along which the search agrees with a relation on classes (`Spec/Execute`); the methods of the file by C56 |
| C85 | the four functions that print, on two files and a system that takes any number of bytes of each write | every message is one write; induction on the messages; reading back is `utf8Decode?` of Lean's library, not a definition of ours |
| C86 | `_time` and `_ticks` on the binary64 numbers of C75 | rounding is monotone and exact for numbers with 53 bits (lemmas of C75); no product overflows below 2^60 seconds |
| C87 | classes with references to the arrays of their field names, a heap of arrays, `fields`, `methods`, `at:put:`, loading | simulation of a view in which nothing changes a class, step by step and over all histories without stores into arrays of `fields` |
| C88 | `=`, `==` and `hashcode` by the kind of the receiver, on objects with addresses; Python's hash functions are parameters | case analysis over the kinds of both objects |
| C51 | both recursive-descent parsers from tokens to trees | soundness and completeness against a grammar given as derivations |

## 3. Trusted base

* Lean 4.33.0 kernel; axioms at most `propext`, `Classical.choice`, `Quot.sound` (checked with `#print axioms`).
* Our reading of the Python source (the code is not executed). Python list/dict/int semantics as rendered by the model:
  unbounded ints, `%`/`//` flooring, negative list indices counting from the end.
* Modelled, by file of the model (each definition cites file and lines): `Base`, `Numeric` (integer, big integer, double);
  `Array`, `Object`, `Heap` (array strategies, object layouts, the jump heaps of the compiler); `Class`, `Globals`,
  `Symbols`, `Strings`; `Lexer`, `Scope`, `Frame`; `Bytecode`, `Gen` (bytecode meaning, generator, peephole rules,
  `assemble`); `Nlr` (contexts, non-local returns); `Literal` (literal arrays), `Trivial`, `TrivialTrees` (trivial methods of both interpreters), `Cond`, `Loops` (library conditionals/loops),
  `Dispatch` (lookup, caches, super, `perform:`, `doesNotUnderstand:`), `Parser`, `ParserClass` (both parsers, from tokens to trees and class texts), `Elab`, `ElabAst` (name resolution of the two parsers), `Position` (the scanner with its buffer and positions, messages of syntax errors), `Disasm` (the listings of `-d`),
  `Quick` (self-rewriting bytecode), `Boolean` (primitives of true and false, identity),
  `Inline` (`_inline_into` and `adapt_after_outer_inlined` of compiled blocks), `Program` (methods with all their blocks, `requires_context`), `Site` (call sites that specialise themselves), `Ast` (the AST compiler: trees, inlining, trivial methods, and their execution; whole programs in `Spec/Whole`), `Universe` (starting the system, loading classes, installing primitives), `Invoke` (entry points of methods and primitives, table of primitives), `Args` (command line), `Shell` (reading lines, the loop of the shell), `Closure` (an evaluator with cells and closures, with and without inlining), `Machine` (frames, contexts, blocks, lookup and sends around the methods of both interpreters; what primitives compute is a parameter), `Prims` (the primitives of the VM on that machine; its head says which ones are left out), `ClassFiles` (the classes of the started system as the classes of the running program, the primitives under the names of their classes), `Texts` (class files from the trees of the parser), `Binary64` (Doubles on CPython), `Nodes` (replacing nodes of a tree).
* `Spec/Reference` is an interpreter of the source itself (scopes, assignments, messages, control structures by their table of conditions); it models no code of the VM and is the yardstick of C69.
* Not modelled: RPython translation, the JIT, garbage collection, where `time.time()` comes from, stdout formatting.
* Float operations are parameters in most files.  `Binary64` gives them for CPython: the functions of Python (`+`, `float(i)`, `int(x)`, `math.floor`, `math.sqrt`, `math.fmod`, comparisons) are written as IEEE 754 and the
  Python documentation say, and this is trusted; `C75_arithmetic`, `C75_convert`, `C75_nearest` and `C77_double` show that they round correctly.  `sin`, `cos` and the conversion between floats and texts are not modelled.
* Python's `hash` of texts is a parameter.  `Execute` (`execute_method`) ends where the method is invoked.  `Hash` (`hashcode`) has the primitives only: class files of the library may define `hashcode` themselves.  `Reflect` (`fields`, `methods`) has only classes and arrays, system classes are loaded like others, and the class sides are left out.  `Output` (printing, in bytes) takes how many bytes a write takes as a parameter; that Python's UTF-8 is the one of Lean's library is trusted.  `FileRead` (`loadFile:`) takes what opening and reading a file does as a parameter.  `Main` (whole runs, from the command line to the status) takes how `initialize:` of the class System ends as a parameter; the status is the number handed to the operating system.

## 4. Disagreements found between the properties and the code

Each entry has a machine-checked witness; the largest part that does hold is proved beside it.

| property | what the code does | theorem |
|---|---|---|
| C02 | RPython: smallest Integer `/`, `%`, `rem:` −1 traps (`integer.py:223,238,253`) | `C02_violated_min_by_minus_one` |
| C03 | BigInteger `rem:` BigInteger divides the receiver by itself, answers 0 (`biginteger.py:199-200`) | `C03_violated_big_rem_big` |
| C03, C07 | BigInteger decrement computes `1 - x` (`biginteger.py:115-116`) | `C03_violated_big_decrement`, `C07_violated_big_decrement` |
| C05 | bit operations on BigIntegers fail or answer 63-bit "32-bit" views; `>>>` of negative numbers differs between runtimes | `C05_violated_big`, `C05_violated_shift_right_platforms` |
| C08, C13 | all-Double and all-Boolean arrays refuse other values (`array.py:390-394`, `463-467`, `436-449`) | `C08_violated`, `C13_violated...` |
| C11 | `putAll: aBlock` loses the first result of a different kind (`array.py:155-195`), Booleans go through the Double helper | `C11_violated...` |
| C12 | nil mixed with one primitive kind cannot be built | `C12_violated...` |
| C14 | index 0 and negative indices wrap around in all representations but the empty one | `C14_violated...` |
| C18 | `methods` also answers inherited methods found by earlier sends (`clazz.py:101-108`, `61-72`) | `C18_violated` |
| C23 | a failed `load:` registers the name with Python's `None` as its value (`universe.py:424-426`): `hasGlobal:` answers true, AST reads yield `None` | `C23_violated` |
| C41 | index errors are answered as an ordinary String (`string_primitives.py:38`, `47`) | `C41_violated_error_is_a_string` |
| C43 | `path_split` loses the root directory and a trailing dot (`osext.py:11-21`) | `C43_violated_split`, `C43_recombine_iff` |
| C15 | two instances created before the first store: a string stored in a field of one, then an Integer in the same field of the other fails an assertion in `with_initialized_field` (`object_layout.py:78-98`) because the second has an old layout | `C15_violated_stale_layout`, `C15_failure_iff` |
| C15 | the 33rd and later primitive fields get bit mask 0 (`storage_location.py:53-58`), so stored numbers read back as nil | `C15_violated_many_fields` |
| C16 | `instVarAt: 0` reads the last field; `instVarNamed:` of an unknown name reads the last field; redeclared names use different slots; `objectSize` never answers the number of fields (`object_primitives.py:17-47`, `object_with_layout.py:143-145`) | `C16_violated_*` |
| C38 | `to:by:do:` with a step of 0 or below never ends or evaluates nothing; on RPython loops up to the largest machine integer never end (`bc/integer_primitives.py:61-78`) | `C38_violated_step`, `C38_violated_descending`, `C38_violated_maxint` |
| C39 | a condition that answers a non-Boolean ends the primitive loop but raises in the inlined AST loop (`literal_while.py:39-53`) | `C39_violated_non_boolean` |
| C52 | `do:` and `doIndexes:` answer Python's `None` (`array_primitives.py:50-87`) | `C52_violated_answer` |
| C24 | an unterminated string literal makes the scanner loop forever (`lexer.py` `_lex_string`); an unknown character is answered as the end of the file, without advancing | `C24_violated_unterminated_string`, `C24_violated_unknown_char` |
| C25 | a second `peek` in a row raises `ValueError` (`lexer.py:228-230`) | `C25_violated_double_peek` |
| C30 | A field increment compiled to `inc_field` (`f := f + 1`) raises "not yet implemented" where `+ 1` would overflow to a big integer, and for an unset field (`storage_location.py:268-281`) | `C30_violated_field_overflow`, `C30_violated_fused_increment` |
| C33 | `e + 1` and `e - 1` are compiled to increment and decrement instructions that never look up `+`: a class's own `+` is not used (`interpreter/bc/interpreter.py:491-523`) | `C33_violated_user_defined_plus` |
| C40 | Inlined conditionals with a receiver that is not a Boolean: the bytecode evaluates the block (`jump_on_false` only tests false), the AST node raises NotImplementedError (`literal_if.py:22-31`); neither sends the message | `C40_violated_non_boolean` |
| C39 | Inlined `whileTrue:` whose condition answers something else: the primitive ends, the bytecode goes on (`method_generation_context.py` `inline_while`) | `C39_violated_bytecode_non_boolean` |
| C37 | (bytecode) After a message was not understood at a call site, a receiver of an outdated layout makes `drop_old_inline_cache_entries` fail: `None.is_latest` (`method_bc.py:156-171`). Also, the size of the cache is always computed as 0 (`interpreter.py:838-846`), so the limit of six entries is never applied (performance only). | `C37_violated_bytecode` |
| C45 | `perform:` and `perform:withArguments:` of a selector that is not understood raise an AttributeError instead of sending `doesNotUnderstand:arguments:`; more than two arguments are not implemented (`object_primitives.py:60-83`). | `C45_violated_perform` |
| C45 | A super send that is not understood raises an AttributeError (bytecode, `interpreter.py:45`) or `Exception("Not yet implemented")` (AST, `super_node.py`). | `C45_violated_super` |
| C45 | `x foo: nil bar: 3`, not understood: building the argument array raises an AttributeError (the array strategy bug of C12). | `C45_violated_dnu_arguments` |
| C46 | (bytecode) `#( #ArraySizeLiteralPlaceholder )` evaluates to an array with the element 1: the symbol shares the literal slot that is later overwritten with the size (`bc/parser.py:380-399`). | `C46_violated_placeholder` |
| C46 | (AST) A literal array is made once by the parser (`ast/parser.py:500-507`), so stores into it are visible the next time the literal is evaluated; the bytecode interpreter makes a new array each time. | `C46_violated_ast_shared` |
| C35 | bytecode interpreter: a method `foo = ( f := self )` fails with NotImplementedError; with one or two arguments `f := self` stores an argument instead | C35_violated_setter |
| C35 | a setter with three or more arguments (`a: x b: y c: z = ( f := y )`) stores the argument before the one that is written: `FieldWrite.invoke_n` is off by one | C35_violated_setter_n |
| C35 | unknown global read in a method of class Block: the trivial method asks the block, the bytecode loop asks the object in whose method the block was created (`get_self_dynamically` follows blocks) | C35_violated_unknown_global |
| C36 | bytecode interpreter: `get_self_dynamically` (`bc/frame.py:187-200`) leaves blocks as long as the receiver is a block; for methods invoked on a block, `escapedBlock:` goes to another object, or an assertion fails | `C36_violated_block_receiver`, `C36_violated_block_receiver_fails` |
| C36 | `escapedBlock:` (and all other sends by the interpreter) to an object that does not implement it raises AttributeError instead of `doesNotUnderstand:` (`send.py:4-18`) | `C36_violated_not_understood` |
| C51 | bytecode: `a + 1 b` (also `- 1`): the unary message after `1` is left over, a syntax error (`bc/parser.py:216-226`) | `C51_violated_plus_one` |
| C51 | both: in `a + super * b` the message `*` becomes a super send (`_super_send` leaks from the operand) | `C51_violated_super_operand` |
| C51 | AST: in `super k: a b` the argument's message becomes a super send (`ast/parser.py:336-347`) | `C51_violated_super_keyword` |
| C51 | AST: statements without a period between them are accepted | `C51_violated_missing_period` |
| C51 | bytecode: `self := x` is accepted; the AST parser refuses it | `C51_violated_self_target` |
| C47 | bytecode: a variable whose slot is above 255: the assertion fails after the opcode has been replaced; later executions silently use another variable (`method_bc.py:173-197`) | `C47_violated_half_patched` |
| C32 | A block with an argument in a message that is inlined (`x ifNotNil: [ :v \| … ]`) fails an assertion in `merge_into_scope`; the method does not compile | `C32_violated_argument` |
| C32 | A block that contains a block consisting only of a field (`c ifTrue: [ self do: [ field ] ]`) cannot be inlined: trivial methods have no `adapt_after_outer_inlined` (AttributeError) | `C32_violated_trivial` |
| C50 | A conditional call site (AST interpreter) that has seen a boolean fails with AssertionError for every other receiver, although its class may define `ifTrue:` | `C50_violated_if` |
| C50 | A `to:do:` site that has counted between Integers fails with AttributeError for a Double limit or another receiver; a new site works | `C50_violated_loop` |
| C50 | A specialised site ignores redefinitions of `to:do:`, `ifTrue:` … | `C50_violated_redefined` |
| C34 | `^ f := x` answers the receiver in the AST interpreter and `x` in the bytecode interpreter | `C34_violated_setter` |
| C34 | `x ifTrue: [ … ]` with a receiver that is not a boolean: the AST interpreter raises NotImplementedError, the bytecode interpreter evaluates the block | `C34_violated_condition` |
| C34 | `x + 01` is a message in the bytecode interpreter and an integer increment in the AST interpreter | `C34_violated_plus` |
| C34 | `x - 1` is a message in the AST interpreter and an instruction for numbers only in the bytecode interpreter | `C34_violated_minus` |
| C34 | After an answer from `escapedBlock:`, `^` in an inlined block ends the block in the bytecode interpreter and does not in the AST interpreter | `C34_violated_escaped` |
| C34 | A literal array is one object in the AST interpreter and a new one at each evaluation in the bytecode interpreter | `C34_violated_array` |
| C34 | `c ifTrue: [ a := self ]`, `c ifTrue: [ Array ]` (a known global) and `x + [ self ]` do not compile in the AST interpreter | `C34_violated_assign_self`, `C34_violated_known_global`, `C34_violated_plus_block` |
| C34 | In a block inside an inlined block, `unknownGlobal:` is sent to an object one context too far out in the AST interpreter | `C34_violated_unknown_global` |
| C55 | A cycle of superclasses is not noticed: loading recurses without end (`universe.py:417-427`, `parser.py:120-137`) | `C55_violated_cycle` |
| C55 | A class with superclass `nil` raises an AttributeError when it is loaded (`class_generation_context.py:100`) | `C55_violated_root` |
| C55 | For the classes that the VM makes itself, name and superclass in the file are ignored; `Object class` lacks the fields of `Class` (`class_generation_context.py:121-133`) | `C55_violated_system`, `C55_violated_fields` |
| C56 | A method with a body is replaced by the VM primitive of the same name if its class declares some primitive (`clazz.py:128-194`) | `C56_violated` |
| C57 | (AST) `invokeOn:with:` of methods and primitives, and in both interpreters `restart` of blocks, are installed as `Primitive`, which has no `invoke_1`/`invoke_3`: every send of them is an AttributeError (`ast/method_primitives.py:24`, `ast/primitive_primitives.py:23`, `block_primitives.py:67`). | `C57_violated_primitives` |
| C57 | (AST) A method with three or more arguments that only answers a literal, a global or a field has no `invoke_args`: sending it is an AttributeError (`method_trivial.py`). | `C57_violated_reader_ast` |
| C57 | A method declared `primitive` that the VM does not have: instead of the warning an AttributeError with up to two arguments; with more, the AST interpreter answers `None` and the bytecode interpreter leaves receiver and arguments on the stack (`primitive.py:122-150`). | `C57_violated_empty` |
| C57 | Blocks with three or more parameters have no class: any message to them is an IndexError (`block_ast.py:45-49`, `block_bc.py:51-55`). | `C57_violated_block` |
| C58 | Text after the closing parenthesis of a class definition is ignored without notice (`sourcecode_compiler.py:46-57`). | `C58_violated_rest` |
| C58 | A class without fields whose first method is `|` is rejected (`parser.py:175-180`); an empty field declaration `||` without a space defines a method `||` from the following words. | `C58_violated_bar`, `C58_violated_empty_fields` |
| C58 | A shell line with unbalanced parentheses can leave the expression the shell puts it into and define methods (`shell.py:29-36`). | `C58_violated_shell` |
| C59 | In a VM that must not exit, `-h` goes on and runs the program, and `-cp` without a path fails with an index error (`universe.py:104-108`, `149-158`); unknown options are taken for the program. | `C59_embedded`, `C59_unknown_option` |
| C60 | An empty line ends the shell; the test that should skip it compares with a newline that was removed before (`shell.py:25-28`, `osext.py:29-30`). | `C60_violated_empty` |
| C60 | Several lines that arrive in one read become one statement; a character cut by the 32 byte buffer makes an error of the first part of a line and a statement of the rest (`osext.py:25-31`). | `C60_violated_together`, `C60_violated_cut` |
| C61 | Variables declared in the body of an inlined loop are made once, not in each iteration: they keep the value of the iteration before, and blocks made in different iterations share them (`method_generation_context.py:86-98`, `frame.py:76-92`). | `C61_violated_fresh`, `C61_violated_shared` |
| C62 | A local variable called `self` is allowed; `^ self` then answers the receiver, `^ (self)` the variable (`bc/parser.py:92-105`, `method_generation_context.py:77-90`). | `C62_violated_self` |
| C62 | Assigning to a name that is not declared is not a parse error: `get_field_index` raises a Python `ValueError` (`bc/parser.py:444-461`, `class_generation_context.py:79-82`). | `C62_violated_undeclared` |
| C63 | A syntax error found after looking ahead is reported at the end of the following token, possibly on a later line (`parser.py:255-260` looks ahead before the expression is looked at). | `C63_violated_lookahead` |
| C63 | At the end of the text the last line is counted twice and no line is shown (`lexer.py:264-274`). | `C63_violated_end` |
| C63 | The line of the source is put into a format for `%` (`parse_error.py:25-40`): a percent sign in it makes `str` of the error raise an exception, or is shown wrongly. | `C63_violated_percent`, `C63_violated_modulo`, `C63_violated_double` |
| C60 | Consequently a statement with a percent sign and a syntax error ends the shell: the exception is raised in the handler (`shell.py:50-51`). | `C60_violated_percent` |
| C64 | With a variable called `self` the AST interpreter reads and writes fields of that variable (`ast/method_generation_context.py:101-117`), the bytecode interpreter those of the receiver. | `C64_violated_self` |
| C64 | Assigning to an undeclared name raises a Python `RuntimeError` in the AST parser, a `ValueError` in the other one; neither is a parse error. | `C64_violated_undeclared` |
| C65 | The listing of `-d` ends with an AttributeError at the first method that was made trivial, such as a getter, because trivial methods have no `get_number_of_bytecodes` (`disassembler.py:29-37`, `method_trivial.py:23-39`). | `C65_violated_trivial` |
| C65 | It fails for a class, or a metaclass, without methods: the table is None (`clazz.py:91-92`). | `C65_violated_empty` |
| C65 | Blocks that need no context are shown as `<incorrect bytecode>` (`disassembler.py:127-129, 199-200`). | `C65_violated_no_context` |
| C65 | The AST interpreter shows `TODO` for every method (`ast/disassembler.py:17-20`). | `C65_violated_ast` |
| C68 | `super` to a method that no superclass has, and an unknown global of an object without `unknownGlobal:` | a Python error ends the program instead of `doesNotUnderstand:arguments:` being sent (`interpreter.py:45`, `super_node.py:20-24`, `send.py:4-18`) | `C68_violated_super`, `C68_violated_unknown_global` |
| C72 | A class that is loaded during the start and names `Block1` (or `True`, `False`) as its superclass gets a class of its own of that name, whose instances lack the VM's primitives: `_make_block_class` loads it again (`universe.py:400-415`) | `C72_violated` |
| C73 | Fields that Class.som declares are not inherited by the classes of classes, although these inherit its methods: `Object class` is assembled from a file with superclass `nil`, which gives no fields (`class_generation_context.py:36-49`, `universe.py:246-262`); a method of `Class` that uses its field reads or writes another one (or none) | `C73_violated` |
| C74 | A field on the class side of a class of the VM (e.g. `Integer = ( ---- \| x \| … )`) has no slot: the class was made before its file was read, with the empty layout of its class (`universe.py:341-348`, `clazz.py:17-30`), and `assemble_system_class` only changes the class of the class. Reading or storing it raises `IndexError`, sending to it with an old layout fails an assertion (`object_with_layout.py:80-91`) | `C74_violated` |
| C75 | `0.49999999999999994 round` answers 1 (and -0.49999999999999994 answers -1): `floor(x + 0.5)` is computed with a rounded sum (`rlib/float.py:17-33`). It is the only such number | `C75_violated` |
| C76 | `9007199254740993 = 9007199254740992 asDouble` is false, and neither `<` nor `>` holds; the other way round `=` is true: an Integer compares exactly for `=` and converts for `<`, a Double always converts (`integer.py:33-98,270-289`, `double.py:88-120`) | `C76_violated` |
| C77 | `4503599627370497 sqrt` (2^52 + 1) answers the Integer 67108864: the root is rounded before the test whether it is an integer (`integer_primitives.py:42-47`) | `C77_violated` |
| C78 | After a recursive call during the arguments of a send that has not run before, the send is specialised twice; the parent pointers of its parts then lead out of the tree, and a global without a value at that time is specialised again in every later call (`abstract_node.py:44-46` has a TODO about the first half) | `C78_violated` |
| C71 | `perform:inSuperclass:` does not look whether the class is a superclass of the receiver's class: methods of any class can be run on any object, and read and write its fields by their own numbering; `3 perform: #not inSuperclass: True` answers false (`object_primitives.py:65-67`). | `C71_violated_perform_in` |
| C35 | (AST) a method with three or more arguments whose body is only `^ 3` is replaced by a trivial method that cannot be called; its tree would answer 3 | `C35_violated_trees` |
| C80 | On RPython `n to: 9223372036854775807` answers an empty array: `hi + 1` wraps around (`integer_primitives.py:174-179`). | `C80_violated_to` |
| C80 | In running programs, `putAll:` with a block that answers Integers and then something else stores a zero in its place (`array.py:153-171`). | `C80_violated_putAll` |
| C80 | In running programs, `instVarNamed:` with a name that is no field answers the last field (`clazz.py:112-122`, `object_primitives.py:45-47`). | `C80_violated_instVarNamed` |
| C83 | When reading a file fails after a part was read, `loadFile:` answers this part as if it were the whole file (`streamio.py:17-22`). | `C83_violated_truncated` |
| C83 | For a file that is no text, the `UnicodeDecodeError` leaves `loadFile:` and ends the program (`system_primitives.py:84`). | `C83_violated_decode` |
| C85 | The number of bytes that `os.write` answers is not looked at: when the system takes only a part (a full pipe, a signal), the rest of the text is lost without an error (`universe.py:487-500`). | `C85_violated_short` |
| C86 | `time` and `ticks` use `time.time()`: when the clock of the system is set back, they go back, too, and can be negative (`system_primitives.py:58-69`). | `C86_violated_set_back` |
| C87 | `fields` answers the array of the class itself: `(Point fields) at: 1 put: #q` renames the field for `instVarNamed:` and for subclasses that are loaded later (`clazz.py:46-47`, `class_generation_context.py:43-45`). | `C87_violated_fields` |
| C88 | Numbers have no primitive `hashcode`: they inherit that of `Object`, which is by address, so that two Doubles (or Integers) with the same value are equal (Integers even by `==`) and have different hash codes, unless the library defines `hashcode` for them (`object_primitives.py:30-33`). | `C88_violated_numbers`, `C88_violated_identical` |
| C48 | BigInteger `&` Double computes a float modulo; BigInteger `rem:` Double fails an assertion (`biginteger.py:213-214`, `202`) | `C48_violated_big` |
| C49 | `=` between Integers and Doubles is neither symmetric nor transitive; Double `=` non-number raises | `C49_violated_numbers` |
| C53 | `abs` of the smallest machine Integer answers itself (`integer.py:110-111`) | `C53_violated_abs_min` |
