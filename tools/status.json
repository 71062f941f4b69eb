{
 "C08": {
  "status": "partial",
  "note": "Refinement to lists for every history without a refused store; the code refuses (AssertionError) a non-Double stored in an all-Double array and a non-Boolean in an all-Boolean array (witness C08_violated)."
 },
 "C09": {
  "status": "proved",
  "note": ""
 },
 "C10": {
  "status": "proved",
  "note": ""
 },
 "C11": {
  "status": "partial",
  "note": "putAll: with a value fully proved; with a block an exact (iff) characterisation of when it is right, plus witnesses of lost results. The block is assumed not to store into the array being filled."
 },
 "C12": {
  "status": "partial",
  "note": "Exact (iff) characterisation; violated for nil mixed with one primitive kind."
 },
 "C13": {
  "status": "partial",
  "note": "Violated: homogeneous arrays can only be extended by the same kind."
 },
 "C14": {
  "status": "partial",
  "note": "Bounds for indices >= 1 proved for every reachable array; index 0/negative wraps in all but the empty representation (witness)."
 },
 "C01": {
  "status": "proved",
  "note": "Both runtimes, all mixes of Integer and BigInteger. rbigint operations are trusted to be exact."
 },
 "C02": {
  "status": "partial",
  "note": "All pairs except minInt by -1 on RPython, where the machine division traps (witness). Also as messages of running programs (C02_messages_partial, C02_zero_messages)."
 },
 "C03": {
  "status": "partial",
  "note": "+ - * (C01), /, %, increment proved; rem: of two BigIntegers always answers 0 and decrement answers 1 - x (both characterised exactly as violations). / and % also as messages of running programs (C03_messages_partial)."
 },
 "C04": {
  "status": "proved",
  "note": ""
 },
 "C05": {
  "status": "partial",
  "note": "Integers proved on both runtimes bit by bit; BigInteger receivers fail or answer wrong 32-bit views (witnesses); CPython's >>> of negative receivers is arithmetic. Also as messages of running programs (Props/PrimMessages.lean)."
 },
 "C06": {
  "status": "proved",
  "note": "Text syntax restricted to blanks, sign, ASCII digits."
 },
 "C07": {
  "status": "partial",
  "note": "Violated for decrement of BigIntegers."
 },
 "C48": {
  "status": "partial",
  "note": "Float arithmetic is a parameter. Violated for BigInteger & Double and BigInteger rem: Double. Also as messages of running programs (C48_message_partial, C48_rejects_message, C48_rejects_comparison)."
 },
 "C49": {
  "status": "partial",
  "note": "Identity is an equivalence (C49_identity); the boolean primitives are the truth functions, evaluate at most the chosen argument, and non-block arguments are answered (C49_booleans, C49_truth_tables); Integer and String equality are equivalences. With Doubles = is neither symmetric nor transitive (witnesses)."
 },
 "C53": {
  "status": "partial",
  "note": "abs wraps for the smallest machine integer on RPython. Also as messages of running programs, for Integers, BigIntegers and, for max: and min:, Doubles."
 },
 "C20": {
  "status": "proved",
  "note": "Every history of pushes and pops refines a bag from which a smallest entry is removed; draining gives a sorted permutation."
 },
 "C17": {
  "status": "proved",
  "note": "Any sequence of lookups after the classes are loaded. Installing a method in a superclass after a memoised lookup is not seen (witness C17_limit_memo_goes_stale); the VM only installs methods while loading a class."
 },
 "C18": {
  "status": "partial",
  "note": "The declared methods always come first and in order; memoised inherited methods follow them (witness C18_violated)."
 },
 "C19": {
  "status": "proved",
  "note": "Including hierarchies that redeclare a name, where the first declaration wins for compiled code."
 },
 "C21": {
  "status": "proved",
  "note": "Any history of interning."
 },
 "C22": {
  "status": "proved",
  "note": "For every selector the grammar forms and, exactly, for arbitrary symbol strings (the empty symbol counts as an operator)."
 },
 "C23": {
  "status": "partial",
  "note": "Refinement to a plain map for every history without a failed load:; after a failed load: hasGlobal: answers true and AST reads yield Python None (witness C23_violated); bytecode reads, global: and load: stay right (C23_robust_reads). JIT elidable hints not modelled."
 },
 "C41": {
  "status": "partial",
  "note": "All operations characterised exactly; index errors are reported by an ordinary String (witness), and the empty substring after the last character is refused. Character classes are a parameter."
 },
 "C42": {
  "status": "proved",
  "note": "read and readline; seek is not part of the property."
 },
 "C43": {
  "status": "partial",
  "note": "Class-path order proved; splitting and recombining is the identity exactly for paths outside the root directory not ending in a dot (iff)."
 },
 "C15": {
  "status": "partial",
  "note": "Refinement to records for every history of a class with at most 32 fields that does not fail, exact (iff) characterisation of the failing stores, full refinement when each store is preceded by dispatch bringing the object up to date; two witnesses of violation (stale layout assertion, 33 primitive fields)."
 },
 "C16": {
  "status": "partial",
  "note": "In-range indices and distinct names proved; index 0/negative, unknown names, redeclared names and objectSize are violated (general theorems or witnesses)."
 },
 "C38": {
  "status": "partial",
  "note": "All positive steps, Integer and Double limits, up and down; violated for steps <= 0 (never ends / evaluates nothing) and on RPython for the largest machine integer as limit. With a Double as limit (CPython, C38_double_up_partial, C38_double_to_do, C38_double_down): exactly up to the largest integer not above it, down to the smallest not below it; nothing for NaN, no end for infinity."
 },
 "C39": {
  "status": "partial",
  "note": "Primitives, AST node and bytecode loop equal the textbook loop for all conditions that answer Booleans, with unboundedly many iterations. C39_violated_non_boolean (AST raises) and C39_violated_bytecode_non_boolean (bytecode loops on) for other conditions."
 },
 "C52": {
  "status": "partial",
  "note": "Iteration proved for every representation and blocks that store into the array; the answer is Python's None (violated)."
 },
 "C24": {
  "status": "partial",
  "note": "The scanner equals an independent specification on every text and every runtime's character classes; tokens reproduce the text; termination holds exactly when no string literal is unterminated. Unterminated strings make the real scanner loop forever (witness)."
 },
 "C25": {
  "status": "partial",
  "note": "Peeking is transparent for every underlying scanner and every request sequence without two consecutive peeks; a second peek raises ValueError (witness)."
 },
 "C26": {
  "status": "proved",
  "note": "Storage assignment for all flag patterns; sizes are exact."
 },
 "C27": {
  "status": "proved",
  "note": "All activation paths of both interpreters (invoke_1/2/3/args, invoke_n) for all flag patterns and argument counts."
 },
 "C28": {
  "status": "proved",
  "note": "Refinement of textbook lexical scoping over all histories of calls, block creations, reads and writes, for the access functions of both interpreters. Name resolution is proved to find the nearest declaration and to be the same in both compilers. Inlined blocks are C32; assignment to self (accepted by the bytecode compiler only) is excluded."
 },
 "C29": {
  "status": "proved",
  "note": "Forward jumps (all nine kinds, short and long, also re-patched ones) and backward jumps, for every code length: which bytes change, where the interpreter continues, and exactly which distances are rejected."
 },
 "C44": {
  "status": "partial",
  "note": "C44_program_partial: the bytes of every compiled method and of every block that it or its blocks create, after inlining, are whole valid instructions of the table's lengths, all bytes are at most 255 and all jumps go to boundaries inside the code. Missing only: literal arrays that contain the symbol #ArraySizeLiteralPlaceholder."
 },
 "C31": {
  "status": "partial",
  "note": "C31_program_partial: for every source method with blocks nested to any depth, no execution of the bytes of the method or of a block that it or its blocks create (after inlining by method_bc.py) underflows the operand stack, exceeds the computed size or meets an invalid instruction. C31_stack_safe: the same for every inliner meeting Inliner.OK, which the inliner of method_bc.py does. Missing only: literal arrays that contain the symbol #ArraySizeLiteralPlaceholder."
 },
 "C33": {
  "status": "partial",
  "note": "For every method or block body the generator accepts, every finished run of the compiled bytes corresponds to exactly one evaluation of the source (relational, left-to-right source semantics without stack or jumps) with the same effects, answer or exception, and conversely. Partial: the meaning of the code inlined for literal blocks enters as a parameter (Means), and `e + 1`, `e - 1`, `f := f + 1` are taken as what the machine's instructions do; C33_violated_user_defined_plus shows that this differs from sending + when a class defines its own +."
 },
 "C30": {
  "status": "partial",
  "note": "The optimising generator (inc/dec, fused field increment, dup/pop elimination, return shortcuts, special constants) and a plain generator without these give code with the same runs, provided the increment instructions do what the message does; C30_increment_field_partial establishes that for the storage-level field increment on integer fields that do not overflow. Violations: the fused increment differs for other receivers and for 64-bit overflow."
 },
 "C40": {
  "status": "partial",
  "note": "The primitives of true and false, the code the bytecode compiler inlines, and the inlined and specialised nodes of the AST interpreter all do what one small table of the library's definitions says, for all receivers and block bodies (including bodies that return non-locally or raise). Partial: for the Boolean messages the receiver must be true or false; C40_violated_non_boolean shows that otherwise the bytecode evaluates the block and the AST raises."
 },
 "C37": {
  "status": "partial",
  "note": "AST interpreter: proved for every history of receivers and layout changes. Bytecode interpreter: proved except that, after the message was not understood once at the call site, a receiver with an outdated layout makes the interpreter fail (proved as a violation). The method lookup in classes is a function here; C17 shows memoisation does not change it."
 },
 "C45": {
  "status": "partial",
  "note": "Direct sends that are not understood pass receiver, selector and all arguments (send_n: always; otherwise unless the arguments contain nil and only Integers or only Doubles besides, which is proved to be lost). perform: and variants and super sends agree with the ordinary call when the method exists; unknown selectors and more than two arguments are proved to fail."
 },
 "C46": {
  "status": "partial",
  "note": "Bytecode: every evaluation ends with a new array with exactly the written elements, at any nesting depth (the meaning of the literal, C46_literal_evaluates, and the compiled bytes, C46_bytecode_partial), provided the symbol #ArraySizeLiteralPlaceholder is not an element (violation proved). AST: the content is right, but the array is made once by the parser, so it is not fresh (violation proved)."
 },
 "C35": {
  "status": "partial",
  "note": "C35_recognised: exactly which method and block bodies become trivial methods, with which literal, global, field and argument, and that the recognition never fails. C35_bytecode_partial: a trivial method gives the same answers, exceptions and states as running its bytes. Missing: setters with no argument or with three or more, setters that store self, and unknown globals in methods of class Block, all of which differ (C35_violated_setter, C35_violated_setter_n, C35_violated_unknown_global; C35_setter_stores says what is stored for every number of arguments); conditional on the inliner specification. AST interpreter: C35_recognised_trees and C35_recognised_blocks say exactly which bodies become trivial; C35_trees_partial, C35_blocks_partial and C35_trees_run: they do what executing the tree does, except `^ f := x` (C34_violated_setter) and methods with three or more arguments, which cannot be called (C35_violated_trees)."
 },
 "C36": {
  "status": "partial",
  "note": "AST interpreter: proved in full by refinement (every run of invocations, block creations, returns and ^ agrees with a specification by home activations). Bytecode interpreter: proved unless a method with non-local returns is invoked on a receiver that is a block and its block escapes, where escapedBlock: goes to the wrong object (violated, witness). escapedBlock: not understood raises AttributeError (violated, witness). Not covered: a ^ inlined into another block in the AST interpreter after an escape."
 },
 "C51": {
  "status": "partial",
  "note": "Completeness and soundness of both parsers against a grammar given as derivations: every expression and method in the part of the grammar the parser gets right is parsed to its tree (C51_expression_partial, C51_method_partial; with the excluded constructs named on tokens: C51_plain_*), trees are unique, and without super everything the parsers answer is a phrase of the grammar with that tree (C51_sound, C51_method_sound; the AST parser with optional periods). Excluded and shown wrong: unary messages after '+ 1' in the bytecode parser, super as a binary operand (both), non-trivial arguments of super keyword messages in the AST parser, missing periods accepted by the AST parser, assignments to self accepted by the bytecode parser. Class definitions are C58."
 },
 "C47": {
  "status": "partial",
  "note": "For whole programs with any history and interleaved activations, the interpreter that rewrites its own bytecode (variable accesses and super sends) takes exactly the steps of one that never rewrites and looks everything up each time (C47_sound_partial, C47_complete_partial, C47_histories_partial). Hypotheses: well-formed bytecode (C44), slots at most 255 and variables of outer contexts captured (C47_slots shows the frame layout gives this). Violated for a variable whose slot is above 255: the first execution raises, later ones silently use another variable (C47_violated_half_patched)."
 },
 "C32": {
  "status": "partial",
  "note": "C32_bindings_partial: for every source method with blocks nested to any depth that compiles, the accesses in the bytes of the method and of the blocks it creates, read with the final variables, are exactly the accesses of the source with a scope for every block, in the same order; C32_accesses_unique: they are determined by the bytes. The final variables are distinct if those of the source are. C32_violated_argument, C32_violated_trivial: blocks with arguments, and blocks around a block that is only a field or global, make the compiler fail. Missing: literal arrays that contain the symbol #ArraySizeLiteralPlaceholder; the AST interpreter's inlining."
 },
 "C50": {
  "status": "partial",
  "note": "Model of call sites with overlapping executions. Proved: which node executes, that it does what the send does when earlier executions had the same kinds of receiver and arguments, and for all other messages always. Violated for other kinds and for redefined messages (witnesses)."
 },
 "C34": {
  "status": "partial",
  "note": "For every program, every depth of calls, and every system around it that only passes on complaints about conditions: all methods and blocks, including blocks changed because a block around them was inlined, have the same outcomes and effects as trees and as bytecode, except that trees may complain about a condition that is not a boolean (C34_program_partial). Missing: literal arrays. The assumptions that the source depends on are needed, since the code violates the property in the places listed (witnesses)."
 },
 "C54": {
  "status": "proved",
  "note": "For every history of starting, loading, entering classes and setting globals, also with failures."
 },
 "C55": {
  "status": "partial",
  "note": "Everything holds for classes loaded by name, and loading ends exactly with the chain of superclasses; but cycles of superclasses are not noticed, a file with superclass nil raises an exception, and for the classes that the VM makes itself the file's name and superclass are ignored and Object class lacks the fields of Class (witnesses)."
 },
 "C56": {
  "status": "partial",
  "note": "The table is characterised completely for loaded classes and for system classes; methods with a body are replaced by VM primitives of the same name (witness)."
 },
 "C57": {
  "status": "partial",
  "note": "Holds exactly for the invokables that fit the number of arguments (C57_ast_partial is an equivalence), which are all but two of the VM primitives and all methods with a body of their own; the rest fails (witnesses): restart, invokeOn:with:, trivial methods with three or more arguments, undefined primitives, blocks with three or more parameters."
 },
 "C58": {
  "status": "partial",
  "note": "For the bytecode parser an equivalence with the grammar (C58_exact_partial) on texts without the constructs C51 gets wrong; the AST parser follows. Violated (witnesses): text after the class is ignored; a first method | is taken for fields; || begins a method; shell lines that are not expressions can be accepted."
 },
 "C59": {
  "status": "proved",
  "note": "For the VM started from the command line (which exits). Every command line is one of the forms of C59_program, C59_shell and C59_usage (C59_all); C59_embedded shows what differs in an embedded VM that must not exit."
 },
 "C60": {
  "status": "partial",
  "note": "Sessions are refined for lines that are not empty and are delivered one at a time without cutting characters, if the messages of syntax errors can be made; empty lines end the shell, lines delivered together are merged, a character cut by the 32 byte buffer breaks the line, and a syntax error in a line with a percent sign ends the shell (witnesses)."
 },
 "C61": {
  "status": "partial",
  "note": "Proved where variables declared in blocks inlined into a loop are assigned before they are read and are not captured by blocks (C61_no_loop_variables: in particular where loops declare none). The full statement is false: such variables are not new in each iteration. Not modelled: the argument of escapedBlock:, which is the block around the inlined one."
 },
 "C62": {
  "status": "partial",
  "note": "For every text: arity of methods and messages (C62_arity); accepted exactly if declarations do not repeat names, no parameter is called self and assignments are to declared names (C62_accepted); names of inlined variables never capture names of the text (C62_inlined_names). The bytecode of every method of a text is well-formed and stack-safe and accesses exactly the variables and fields its names mean, in order (C62_source_partial, C62_stack_safe_partial, C62_well_formed_partial, C62_bindings_partial). Missing: literal arrays with #ArraySizeLiteralPlaceholder, local variables called self. Violated: C62_violated_self, C62_violated_undeclared."
 },
 "C63": {
  "status": "partial",
  "note": "Positions are right after every token unless the parser has looked ahead (then they are those of the next token) and except at the end of the text; messages are right for lines without a percent sign (otherwise making the message raises another exception, or shows something else). Witnesses are proved. The scanner with its buffer is proved to refine the scanner of C24 (C24_buffered)."
 },
 "C64": {
  "status": "partial",
  "note": "Proved from text: class, names, methods, blocks, whole programs. Missing: texts with super or assignments to self (the parsers differ), variables called self (violated), literal arrays, non-boolean conditions, `^ f := x` (violated, see C34)."
 },
 "C65": {
  "status": "partial",
  "note": "Proved for every compiled method, with nested blocks; success is characterised exactly. Violated for methods and blocks that the compiler made trivial (AttributeError), classes without methods (AttributeError), blocks without context (shown as incorrect bytecode) and by the AST interpreter (shows only TODO); witnesses are proved."
 },
 "C66": {
  "status": "partial",
  "note": "Proved: both interpreters have at most one outcome for every call in every state; an outcome of one that is not a NotImplementedError, AssertionError or AttributeError is the outcome of the other or that one raises such an error; calls that raise none have the same outcomes. Excluded are programs for which the interpreters really differ (C33, C34, C36) and literal arrays. What primitives compute is a parameter; classes are loaded beforehand."
 },
 "C67": {
  "status": "partial",
  "note": "Bytecode interpreter: proved for all compiled programs and all histories of calls (primitives must not make blocks). AST interpreter (C67_trees_partial): for the programs of C66, leaving out states after one of the three Python errors of C66."
 },
 "C68": {
  "status": "partial",
  "note": "Proved for messages, super, blocks, globals and returns where a method is found. Violated where super, or a message the VM itself sends, finds no method: a Python error instead of doesNotUnderstand:arguments: (C68_violated_super, C68_violated_unknown_global)."
 },
 "C69": {
  "status": "partial",
  "note": "Trees: equality with the interpreter of the source, at every depth of calls. Bytecode: the same up to conditions that are not booleans; on the machine up to the three Python errors of C66. Missing: literal arrays, and programs in which the interpreters differ (Compiled2.Ok, as in C34)."
 },
 "C70": {
  "status": "proved",
  "note": "For both interpreters, all compiled programs, all reachable states. The AST compiler resolves super when it makes the node; the machine reads the class from the frame; that both are the same is what is proved. The errors raised if super finds nothing differ between the interpreters (C45)."
 },
 "C71": {
  "status": "partial",
  "note": "Proved for arbitrary behaviour of blocks and methods: value, messages to booleans, whileTrue:/whileFalse:, exact arithmetic and comparison of integers, at:put:; C66, C67, C69 and C70 with the actual primitives (C66_primitives_partial, C67_primitives, C69_primitives_partial, C70_primitives). Partial: counting loops for positive steps and counters that stay machine integers (C38), perform: of messages that are understood with at most two arguments (C45), at: from 1 (C14), the answers of do: and doIndexes: are None in the VM (C52)."
 },
 "C72": {
  "status": "partial",
  "note": "C72_class, C72_loaded, C72_values, C72_lookup, C72_send, C72_primitive, C72_not_understood, C72_super: for every system that was started and went on. Partial: globals that the program has set are excluded for the class and its superclasses; no file may name True, False or a class of blocks as its superclass (C72_violated); declared primitives that the VM does not have are not described while running; C72_interpreters_partial inherits the conditions of C66."
 },
 "C73": {
  "status": "partial",
  "note": "Proved: which text and which method in it a message runs, with both interpreters' compilations of it in a class with the fields that the texts say; fields of superclasses come first and keep their numbers; running gives the value of evaluating that text's method. Assumed: what C64 and C69 leave out (literal arrays, setters, texts that assign to self), and that the files of the VM's own classes declare no fields (NoFields); with fields in Class the property is violated (C73_violated)."
 },
 "C74": {
  "status": "partial",
  "note": "C74_room_partial and C74_record_partial: every class that the VM has not made itself has one slot per field of its class side, and these behave as a record (up to 32 fields); C74_own and C74_violated: the eleven classes of the VM never have slots, so class-side fields declared in their files cannot be read or stored."
 },
 "C75": {
  "status": "partial",
  "note": "C75_round_partial says exactly when round is right: for all finite Doubles but +-0.49999999999999994, where it answers +-1 (C75_violated). The other parts (asInteger, asDouble, there and back, arithmetic, errors) are proved for all values. CPython; Python's float operations are trusted as IEEE 754 says. Arithmetic of Doubles also as messages of running programs (Props/PrimDoubles.lean)."
 },
 "C76": {
  "status": "partial",
  "note": "C76_compare_partial: all six comparisons for Integers up to 2^53 and all Doubles but NaN; C76_less_partial: for all Integers, a yes of < or > is right; C76_equal: Integer = Double is exact for all Integers; C76_nan. C76_violated: 2^53+1 and the Double 2^53 are neither less, equal nor greater, and = is not symmetric. CPython. Also as messages of running programs (C76_message_partial, C76_max_min_message_partial)."
 },
 "C77": {
  "status": "partial",
  "note": "C77_root_partial: for Integers up to 2^52, an Integer is answered exactly for squares; C77_double: the nearest Double. C77_violated: 2^52+1 has the Integer root 2^26. CPython."
 },
 "C78": {
  "status": "partial",
  "note": "C78_program, C78_replacement and C78_no_error hold for all runs. C78_once_partial and C78_in_place_partial: specialised at most once and in place, for runs without recursion. C78_violated: after two nested calls a node is specialised again in every call for ever (it costs time, the results are right)."
 },
 "C79": {
  "status": "proved",
  "note": "For all programs whose bytecode the compiler made, resp. all trees, in any state; C79_class, C79_numbers, C79_strings, C79_arrays, C79_blocks and C79_output spell it out."
 },
 "C80": {
  "status": "partial",
  "note": "Indices within strings, fields and arrays: outside of them the code answers strings with a message (C41) or counts from the end (C14, C52). putAll: with something that is not a block (with blocks: C11). `to:` on RPython up to the largest machine integer is C80_violated_to. `putAll:` with a block whose answers are of different kinds loses one of them (C80_violated_putAll; Booleans and Doubles among others are left out), and `instVarNamed:` with an unknown name answers the last field (C80_violated_instVarNamed)."
 },
 "C81": {
  "status": "partial",
  "note": "All texts without a local variable called `self` (C62_violated_self: there `^ self` and `^ (self)` differ). C81_message_partial is about the programs of C73."
 },
 "C82": {
  "status": "proved",
  "note": "How the method `initialize:` and the statements of the shell end is a parameter of the model. The status is the number handed to the operating system, which keeps its lowest eight bits."
 },
 "C83": {
  "status": "partial",
  "note": "For files whose reads fail C83_failing_partial says only that a beginning of the contents, nil or an exception comes: a failure after the first part gives this part as if it were all (C83_violated_truncated), and bytes that are no text end the program (C83_violated_decode)."
 },
 "C84": {
  "status": "proved",
  "note": "For the first call of execute_method in a process, and for names whose global is a class or nothing."
 },
 "C85": {
  "status": "partial",
  "note": "Complete only if the system takes all bytes of each write (C85_arrives_partial, C85_read_partial); when it takes fewer, the rest is lost without an error (C85_violated_short), C85_write_partial says what arrives then. Texts with lone surrogates are left out."
 },
 "C86": {
  "status": "partial",
  "note": "Not less than before only if the clock of the system does not go back (C86_forward_partial); `time.time()` is not monotonic (C86_violated_set_back)."
 },
 "C87": {
  "status": "partial",
  "note": "Histories without stores into the arrays that `fields` answers (C87_step_partial, C87_run_partial); such a store changes the class (C87_violated_fields). The table of methods is without the inherited entries of C18."
 },
 "C88": {
  "status": "partial",
  "note": "Receivers that are no numbers (C88_equal_partial), or no Integers for `==` (C88_identical_partial); numbers get hash codes by address (C88_violated_numbers, C88_violated_identical), unless a class file defines `hashcode` itself."
 }
}