{"id": "C01", "title": "Integer addition, subtraction and multiplication are exact", "statement": "For any two machine Integers or BigIntegers, `+`, `-` and `*` answer a number whose mathematical value is exactly the sum, difference or product; results that do not fit a machine word become BigIntegers instead of wrapping, on both the RPython (64-bit, overflow-checked) and the CPython (unbounded) runtime.", "quantifier": "all pairs of integers (small or big), both runtimes, three operations", "why_tests_cant": "There are 2^128 pairs of machine integers alone; tests only probe a few boundary values.", "anchors": ["src/som/vmobjects/integer.py:Integer.prim_add", "src/som/vmobjects/integer.py:Integer.prim_subtract", "src/som/vmobjects/integer.py:Integer.prim_multiply", "src/som/vmobjects/biginteger.py:BigInteger.prim_add", "src/rlib/arithmetic.py:ovfcheck"]}
{"id": "C02", "title": "Integer division, modulo and remainder laws", "statement": "For every dividend and non-zero divisor that are Integers: `/` is floor division, `%` has the divisor's sign, `(a / b) * b + (a % b) = a`, and `rem:` is the truncating remainder with the dividend's sign. No result leaves the machine range unnoticed.", "quantifier": "all pairs of Integers with non-zero divisor, both runtimes", "why_tests_cant": "Sign combinations and the most-negative integer are corner cases in an infinite domain.", "anchors": ["src/som/vmobjects/integer.py:Integer.prim_int_div", "src/som/vmobjects/integer.py:Integer.prim_modulo", "src/som/vmobjects/integer.py:Integer.prim_remainder", "src/rlib/llop.py:int_mod"]}
{"id": "C03", "title": "BigInteger arithmetic is exact", "statement": "`+ - * / %`, `rem:`, negation, increment and decrement on BigIntegers answer the mathematically correct integer, for every mix of BigInteger and Integer operands.", "quantifier": "all pairs of integers at least one of which is a BigInteger", "why_tests_cant": "The domain is unbounded.", "anchors": ["src/som/vmobjects/biginteger.py:BigInteger"]}
{"id": "C04", "title": "Numeric comparison is a coherent total order", "statement": "For Integers and BigIntegers in any mix, `< <= > >= = <>` answer exactly what the mathematical order says; hence trichotomy, transitivity and antisymmetry hold.", "quantifier": "all pairs/triples of integers, mixed representations", "why_tests_cant": "Order laws quantify over triples of an unbounded domain.", "anchors": ["src/som/vmobjects/integer.py:Integer.prim_less_than", "src/som/vmobjects/integer.py:Integer.prim_equals", "src/som/vmobjects/biginteger.py"]}
{"id": "C05", "title": "Bit operations and 32-bit views", "statement": "`bitXor:`, `&`, `<<`, `>>>`, `as32BitSignedValue` and `as32BitUnsignedValue` compute the two's-complement result: 32-bit views are the unique value in range congruent to the receiver modulo 2^32; shift left multiplies exactly; shift right of a non-negative number divides by a power of two.", "quantifier": "all integers and shift distances", "why_tests_cant": "Unbounded domain; boundary values at every power of two.", "anchors": ["src/som/primitives/integer_primitives.py:_left_shift", "src/som/primitives/integer_primitives.py:_unsigned_right_shift", "src/rlib/llop.py:as_32_bit_signed_value"]}
{"id": "C06", "title": "Printing and parsing integers round-trip", "statement": "`Integer fromString: (x asString)` answers an integer equal to x for every x, whichever representation x has.", "quantifier": "all integers", "why_tests_cant": "Unbounded domain.", "anchors": ["src/som/primitives/integer_primitives.py:_from_string", "src/som/vmobjects/integer.py:Integer.prim_as_string"]}
{"id": "C07", "title": "Increment and decrement shortcuts agree with general arithmetic", "statement": "The special increment/decrement operations that the compilers emit for `x + 1` and `x - 1` give the same number as the general `+`/`-` with argument 1, for every numeric receiver.", "quantifier": "all numbers in all representations, both runtimes", "why_tests_cant": "Overflow boundary and each representation must agree for every value.", "anchors": ["src/som/vmobjects/integer.py:Integer.prim_inc", "src/som/vmobjects/integer.py:Integer.prim_dec", "src/som/vmobjects/biginteger.py:BigInteger.prim_dec", "src/som/compiler/bc/parser.py", "src/som/interpreter/bc/interpreter.py"]}
{"id": "C08", "title": "Arrays behave like fixed-length sequences under any history", "statement": "Whatever sequence of creation, `at:put:`, `at:` and `copy` operations with values of any kinds is applied, `at:` answers the value last stored at that index (nil if none), other indices are unaffected, and the length never changes; the internal specialised representations are unobservable.", "quantifier": "all operation sequences, all values, all lengths", "why_tests_cant": "The representation changes depend on the full history; tests cover a few transitions.", "anchors": ["src/som/vmobjects/array.py:Array", "src/som/vmobjects/array.py:_EmptyStrategy", "src/som/vmobjects/array.py:_PartiallyEmptyStrategy", "src/som/vmobjects/array.py:_LongStrategy"]}
{"id": "C09", "title": "Array representation invariants", "statement": "In every reachable array the internal representation is consistent: a specialised representation holds only elements of its type, an empty representation holds only nil, and the count of empty slots kept by a partially filled array never under-counts the nil slots.", "quantifier": "all reachable arrays", "why_tests_cant": "Invariant over all histories.", "anchors": ["src/som/vmobjects/array.py:_PartialStorage", "src/som/vmobjects/array.py:_PartiallyEmptyStrategy._try_to_transition"]}
{"id": "C10", "title": "Array copies are independent", "statement": "After `copy`, the copy has the same elements as the original, and no later store to either array is visible through the other.", "quantifier": "all arrays and all subsequent store sequences to either", "why_tests_cant": "Aliasing bugs show only under particular histories.", "anchors": ["src/som/vmobjects/array.py:Array.copy"]}
{"id": "C11", "title": "putAll: stores the right value in every slot", "statement": "`putAll: v` makes every slot hold v; `putAll: aBlock` evaluates the block once per slot in index order and stores exactly the results.", "quantifier": "all array lengths, all values, all sequences of block results", "why_tests_cant": "Mixed-type result sequences are unbounded.", "anchors": ["src/som/vmobjects/array.py:_set_all_with_value", "src/som/vmobjects/array.py:_set_all_with_block"]}
{"id": "C12", "title": "Arrays built from a list of values contain exactly these values", "statement": "Building an array from a list of values (argument arrays, literal arrays, reflection results) yields an array whose elements are exactly these values in order.", "quantifier": "all lists of values", "why_tests_cant": "Representation choice depends on the whole list.", "anchors": ["src/som/vmobjects/array.py:Array.from_values", "src/som/vmobjects/array.py:_determine_strategy"]}
{"id": "C13", "title": "Extending an array appends one element", "statement": "`copy_and_extend_with(v)` answers an array with the old elements followed by v; the original is unchanged.", "quantifier": "all arrays in any representation, all values", "why_tests_cant": "All representations x all value kinds.", "anchors": ["src/som/vmobjects/array.py:Array.copy_and_extend_with"]}
{"id": "C14", "title": "Array bounds", "statement": "`at:` and `at:put:` with an index in 1..length touch exactly that slot; with an index above the length they fail without changing the array; index 0 and negative indices behave the same for every representation.", "quantifier": "all arrays and all integer indices", "why_tests_cant": "Unbounded indices; representation dependent.", "anchors": ["src/som/primitives/array_primitives.py:_at", "src/som/vmobjects/array.py"]}
{"id": "C15", "title": "Objects behave like records of fields under any history", "statement": "For any set of instances of a class and any interleaved sequence of field reads and writes with values of any kinds on these instances (with layout changes driven by any of them), a read answers the value last written to that field of that object, and nil if never written.", "quantifier": "all interleaved operation sequences on all instances, all value kinds", "why_tests_cant": "Layout migration depends on the history of all objects of the class.", "anchors": ["src/som/vmobjects/object_with_layout.py:ObjectWithLayout", "src/som/interpreter/objectstorage/object_layout.py:ObjectLayout"]}
{"id": "C16", "title": "Reflective field access agrees with normal access", "statement": "`instVarAt:`, `instVarAt:put:` and `instVarNamed:` read and write the same field the compiler would address by name, `objectSize` answers the number of fields, and unknown names or indices are reported as errors.", "quantifier": "all classes and field names, all objects", "why_tests_cant": "Quantifies over class shapes and inheritance chains.", "anchors": ["src/som/primitives/object_primitives.py", "src/som/vmobjects/clazz.py:Class.lookup_field_index", "src/som/compiler/class_generation_context.py"]}
{"id": "C17", "title": "Method lookup finds the nearest definition and memoisation is unobservable", "statement": "A message finds the method defined in the nearest class on the superclass chain; repeated lookups in any order give the same answers as the first, although found methods are copied into the classes' tables.", "quantifier": "all finite class hierarchies, all sequences of lookups", "why_tests_cant": "The cache content depends on the lookup history.", "anchors": ["src/som/vmobjects/clazz.py:Class.lookup_invokable"]}
{"id": "C18", "title": "Reflective method list", "statement": "`methods` answers exactly the methods the class itself defines, regardless of what messages have been sent before.", "quantifier": "all classes and lookup histories", "why_tests_cant": "History dependent.", "anchors": ["src/som/vmobjects/clazz.py:Class.get_instance_invokables", "src/som/primitives/class_primitives.py"]}
{"id": "C19", "title": "Field numbering is consistent along inheritance", "statement": "Every field of a class, including inherited ones, has an index within the number of fields; inherited fields keep the index they have in the superclass; distinct names get distinct indices.", "quantifier": "all class hierarchies", "why_tests_cant": "Quantifies over hierarchies.", "anchors": ["src/som/vmobjects/clazz.py:Class.lookup_field_index", "src/som/vmobjects/clazz.py:Class.get_number_of_instance_fields", "src/som/compiler/class_generation_context.py:ClassGenerationContext.assemble"]}
{"id": "C20", "title": "The compiler's priority queue always yields the smallest entry", "statement": "Any sequence of pushes and pops on the address-ordered queue pops the entries in address order, loses none, and keeps the heap shape.", "quantifier": "all push/pop sequences", "why_tests_cant": "Heap bugs show only for particular sizes and orders.", "anchors": ["src/rlib/min_heap_queue.py:heappush", "src/rlib/min_heap_queue.py:heappop"]}
{"id": "C21", "title": "Symbols are unique", "statement": "Two symbols are identical exactly when their strings are equal, whatever has been interned before.", "quantifier": "all strings and intern histories", "why_tests_cant": "History dependent.", "anchors": ["src/som/vm/symbols.py:symbol_for"]}
{"id": "C22", "title": "Selector arity", "statement": "The number of arguments of a selector is 2 for an operator, otherwise the number of colons plus one; the compilers push exactly that many operands for a send, so callee and caller agree.", "quantifier": "all selector strings", "why_tests_cant": "Unbounded strings.", "anchors": ["src/som/vmobjects/symbol.py:Symbol._determine_number_of_signature_arguments"]}
{"id": "C23", "title": "Globals behave like a map and cached associations never go stale", "statement": "`global:put:` followed by any other global operations is seen by every later read of that global, including reads through previously cached associations; unset globals read as nil / are reported unknown.", "quantifier": "all histories of global reads, writes and cached reads", "why_tests_cant": "History dependent.", "anchors": ["src/som/vm/universe.py:Universe.get_global", "src/som/vm/universe.py:Universe.set_global", "src/som/vm/universe.py:Universe.get_globals_association"]}
{"id": "C24", "title": "The scanner terminates and tokens reproduce the text", "statement": "On every source text scanning terminates; every token's text is the corresponding piece of the source; white space and comments produce no tokens.", "quantifier": "all source texts", "why_tests_cant": "Unbounded strings; termination cannot be tested.", "anchors": ["src/som/compiler/lexer.py:Lexer.get_sym"]}
{"id": "C25", "title": "Looking ahead does not change the token stream", "statement": "Peeking any number of times gives the same sequence of tokens as not peeking.", "quantifier": "all texts and all interleavings of peeks and reads", "why_tests_cant": "Interleavings are unbounded.", "anchors": ["src/som/compiler/lexer.py:Lexer.peek", "src/som/compiler/lexer.py:Lexer.peek_done"]}
{"id": "C26", "title": "Variables never share storage", "statement": "In every method and block, the storage slots assigned to distinct arguments and locals are distinct, lie inside the allocated frame or context, and do not overlap the bookkeeping slots.", "quantifier": "all sets of arguments and locals with any access pattern", "why_tests_cant": "Combinatorial in number of variables and which are captured.", "anchors": ["src/som/compiler/method_generation_context.py:MethodGenerationContextBase.prepare_frame", "src/som/compiler/ast/variable.py"]}
{"id": "C27", "title": "Activations start with the arguments in place and locals nil", "statement": "A fresh activation, however many arguments are passed and however they are captured, lets the method read each argument's value in its slot and nil in each local.", "quantifier": "all argument lists and capture patterns, every calling convention", "why_tests_cant": "Five construction paths x all capture patterns.", "anchors": ["src/som/interpreter/ast/frame.py", "src/som/interpreter/bc/frame.py"]}
{"id": "C28", "title": "Lexical addressing", "statement": "A variable used in a nested block resolves to the nearest enclosing declaration, and the emitted address (index, level) reaches exactly that variable's storage at run time through the chain of contexts.", "quantifier": "all nestings of blocks and declarations", "why_tests_cant": "Unbounded nesting.", "anchors": ["src/som/compiler/bc/method_generation_context.py:MethodGenerationContext.find_var", "src/som/compiler/lexical_scope.py:LexicalScope", "src/som/interpreter/bc/frame.py:get_block_at"]}
{"id": "C29", "title": "Jump patching is exact", "statement": "A patched forward or backward jump, short or long, makes the interpreter continue at exactly the intended instruction; offsets that cannot be encoded are rejected.", "quantifier": "all code lengths and jump distances", "why_tests_cant": "Boundary at 255/256 and 65535; all prefixes.", "anchors": ["src/som/compiler/bc/method_generation_context.py:MethodGenerationContext.patch_jump_offset_to_point_to_next_instruction", "src/som/compiler/bc/method_generation_context.py:MethodGenerationContext.emit_backwards_jump_offset_to_target", "src/som/interpreter/bc/interpreter.py:interpret"]}
{"id": "C30", "title": "Peephole optimisations preserve behaviour", "statement": "Each rewriting the bytecode generator performs (dropping dup/pop pairs, fusing increments of fields, fusing field returns) leaves the result, the stack and all effects of the method unchanged.", "quantifier": "all machine states and all code in which the rewriting fires", "why_tests_cant": "All states.", "anchors": ["src/som/compiler/bc/method_generation_context.py:MethodGenerationContext.optimize_dup_pop_pop_sequence", "src/som/compiler/bc/method_generation_context.py:MethodGenerationContext.optimize_inc_field", "src/som/compiler/bc/method_generation_context.py:MethodGenerationContext.optimize_return_field"]}
{"id": "C31", "title": "The operand stack never overflows or underflows", "statement": "For every method the compiler produces, no execution reads below the bottom of the operand stack or writes above the size computed by the compiler.", "quantifier": "all source methods, all executions", "why_tests_cant": "All programs and executions.", "anchors": ["src/som/compiler/bc/bytecode_generator.py", "src/som/compiler/bc/method_generation_context.py:MethodGenerationContext.add_bytecode", "src/som/interpreter/bc/interpreter.py"]}
{"id": "C32", "title": "Inlining a block keeps variable bindings", "statement": "After a block is inlined into its surrounding method, each variable access of the block and of all blocks nested in it denotes the same declared variable as before.", "quantifier": "all block bodies, all nestings", "why_tests_cant": "Unbounded nesting and interplay of levels.", "anchors": ["src/som/vmobjects/method_bc.py:BcAbstractMethod._inline_into", "src/som/vmobjects/method_bc.py:BcAbstractMethod.adapt_after_outer_inlined", "src/som/compiler/method_generation_context.py:MethodGenerationContextBase.inline_locals"]}
{"id": "C33", "title": "The bytecode compiler is correct", "statement": "Executing the bytecode of a method gives the same result, the same effects and the same order of message sends as evaluating the source expressions directly.", "quantifier": "all source methods in the modelled language, all inputs, all behaviours of the called methods", "why_tests_cant": "All programs and inputs.", "anchors": ["src/som/compiler/bc/parser.py", "src/som/compiler/bc/bytecode_generator.py", "src/som/interpreter/bc/interpreter.py"]}
{"id": "C34", "title": "Both interpreters agree", "statement": "The AST interpreter and the bytecode interpreter give the same result and effects for every program.", "quantifier": "all programs of the modelled language, all inputs", "why_tests_cant": "All programs.", "anchors": ["src/som/interpreter/ast/nodes", "src/som/interpreter/bc/interpreter.py"]}
{"id": "C35", "title": "Trivial-method shortcut is unobservable", "statement": "Methods recognised as trivial (return a literal, read a global, read a field, write a field) behave exactly like the generic execution of their body for any number of arguments.", "quantifier": "all trivial methods, all receivers, all arities", "why_tests_cant": "All arities and argument positions.", "anchors": ["src/som/vmobjects/method_trivial.py", "src/som/compiler/bc/method_generation_context.py:MethodGenerationContext.assemble_trivial_method"]}
{"id": "C36", "title": "Non-local return", "statement": "`^ v` inside a block, at any nesting depth, makes exactly the method activation in which the block was lexically created answer v, terminating all activations in between; if that activation has already ended, `escapedBlock:` is sent to the method's receiver instead.", "quantifier": "all call stacks, nesting depths and escape histories", "why_tests_cant": "Unbounded stacks and recursion.", "anchors": ["src/som/interpreter/bc/interpreter.py:_do_return_non_local", "src/som/vmobjects/method_bc.py:_interp_with_nlr", "src/som/interpreter/ast/nodes/return_non_local_node.py"]}
{"id": "C37", "title": "Inline caching is unobservable", "statement": "For any history of receivers at a call site, with objects changing layout in between, the method executed is the one ordinary lookup would find, and messages not understood are reported with the receiver, selector and arguments.", "quantifier": "all receiver histories, all cache states", "why_tests_cant": "History dependent.", "anchors": ["src/som/interpreter/bc/interpreter.py:_lookup", "src/som/vmobjects/method_bc.py:BcAbstractMethod.drop_old_inline_cache_entries", "src/som/interpreter/ast/nodes/dispatch.py", "src/som/interpreter/ast/nodes/message/generic_node.py"]}
{"id": "C38", "title": "Counting loops", "statement": "`to:do:`, `to:by:do:` and `downTo:do:` evaluate the block for exactly the numbers of the arithmetic progression, in order, and answer the receiver.", "quantifier": "all bounds and steps (Integer and Double limits)", "why_tests_cant": "Unbounded bounds.", "anchors": ["src/som/primitives/bc/integer_primitives.py", "src/som/interpreter/ast/nodes/specialized/to_do_node.py"]}
{"id": "C39", "title": "While loops", "statement": "`whileTrue:`/`whileFalse:` evaluate condition and body alternately until the condition answers the stop value, and answer nil; inlined loops behave the same.", "quantifier": "all conditions and bodies", "why_tests_cant": "Unbounded iterations.", "anchors": ["src/som/primitives/bc/block_primitives.py", "src/som/compiler/bc/method_generation_context.py:MethodGenerationContext.inline_while", "src/som/interpreter/ast/nodes/specialized/literal_while.py"]}
{"id": "C40", "title": "Inlined conditionals agree with the library definitions", "statement": "`ifTrue:`, `ifFalse:`, `ifTrue:ifFalse:`, `and:`, `or:`, `ifNil:` and variants compiled inline give the same result and effects as sending the message to true, false or nil.", "quantifier": "all conditions and branch bodies", "why_tests_cant": "All branch code.", "anchors": ["src/som/compiler/bc/method_generation_context.py:MethodGenerationContext.inline_then_branch", "src/som/compiler/bc/method_generation_context.py:MethodGenerationContext.inline_then_else_branches", "src/som/interpreter/ast/nodes/specialized/literal_if.py"]}
{"id": "C41", "title": "String operations", "statement": "`=`, `concatenate:`, `length`, `charAt:`, `primSubstringFrom:to:`, `isWhiteSpace`, `isLetters`, `isDigits` behave like the mathematical operations on character sequences, and out-of-range positions are reported, never silently wrong.", "quantifier": "all strings and positions", "why_tests_cant": "Unbounded strings.", "anchors": ["src/som/primitives/string_primitives.py"]}
{"id": "C42", "title": "Reading from a string stream", "statement": "Any sequence of read and readline calls returns consecutive pieces whose concatenation is the underlying text.", "quantifier": "all texts and all call sequences", "why_tests_cant": "Unbounded sequences.", "anchors": ["src/rlib/string_stream.py:StringStream"]}
{"id": "C43", "title": "Class path handling", "statement": "Splitting a path and recombining it is the identity; a class is loaded from the first directory in class-path order that has it.", "quantifier": "all paths and class paths", "why_tests_cant": "Unbounded strings.", "anchors": ["src/rlib/osext.py:path_split", "src/som/vm/universe.py:Universe.handle_arguments", "src/som/vm/universe.py:Universe._load_class"]}
{"id": "C44", "title": "Generated bytecode decodes uniquely", "statement": "The bytes produced for any method are a sequence of well-formed instructions and every jump lands on an instruction boundary inside the method.", "quantifier": "all source methods", "why_tests_cant": "All programs.", "anchors": ["src/som/interpreter/bc/bytecodes.py:_BYTECODE_LENGTH", "src/som/compiler/bc/bytecode_generator.py"]}
{"id": "C45", "title": "perform: and doesNotUnderstand:", "statement": "`perform:` and its variants have the same result as the direct send of the selector with these arguments; a failed lookup sends doesNotUnderstand:arguments: with the selector and all the arguments in order.", "quantifier": "all receivers, selectors and argument lists", "why_tests_cant": "All arities.", "anchors": ["src/som/primitives/object_primitives.py", "src/som/interpreter/bc/interpreter.py:send_does_not_understand", "src/som/interpreter/send.py"]}
{"id": "C46", "title": "Literal arrays", "statement": "A literal array evaluates to a fresh array with exactly the written elements, at any nesting depth and for any element count the compiler accepts.", "quantifier": "all literal array expressions", "why_tests_cant": "Unbounded nesting.", "anchors": ["src/som/compiler/bc/parser.py:Parser._literal_array", "src/som/compiler/bc/method_generation_context.py:MethodGenerationContext.update_literal"]}
{"id": "C47", "title": "Self-rewriting bytecode is unobservable", "statement": "Replacing a symbolic variable access or a super send by its quick form during execution leaves the meaning of the method unchanged for the current and all later executions.", "quantifier": "all methods, all execution histories", "why_tests_cant": "History dependent.", "anchors": ["src/som/vmobjects/method_bc.py:BcAbstractMethod.patch_variable_access", "src/som/interpreter/bc/interpreter.py:_do_super_send"]}
{"id": "C48", "title": "Double arithmetic converts integers, rejects others", "statement": "Arithmetic and comparison between Doubles and Integers converts the integer operand; a non-number operand is an error for arithmetic.", "quantifier": "all operand pairs", "why_tests_cant": "All pairs.", "anchors": ["src/som/vmobjects/double.py:Double"]}
{"id": "C49", "title": "Boolean, nil and object identity primitives", "statement": "`not`, `and:`, `or:`, `==` and equality on symbols, strings and numbers agree with identity or value equality as documented; equality is reflexive, symmetric and transitive.", "quantifier": "all values", "why_tests_cant": "All triples of values.", "anchors": ["src/som/primitives/object_primitives.py", "src/som/primitives/integer_primitives.py", "src/som/primitives/string_primitives.py", "src/som/primitives/symbol_primitives.py"]}
{"id": "C50", "title": "AST call-site specialisation is unobservable", "statement": "Replacing a message send node by a specialised node (inline conditionals, counting loops, increments) after its first execution never changes the outcome of later executions.", "quantifier": "all receiver/argument histories at a call site", "why_tests_cant": "History dependent.", "anchors": ["src/som/interpreter/ast/nodes/specialized", "src/som/interpreter/ast/nodes/message/uninitialized_node.py"]}
{"id": "C51", "title": "Operator precedence and parsing of messages", "statement": "Unary messages bind tighter than binary, binary tighter than keyword; binary messages associate to the left; a well-formed expression is parsed to the tree the Smalltalk grammar prescribes.", "quantifier": "all well-formed expressions", "why_tests_cant": "Unbounded expressions.", "anchors": ["src/som/compiler/parser.py:ParserBase", "src/som/compiler/bc/parser.py:Parser._messages", "src/som/compiler/ast/parser.py:Parser._keyword_message"]}
{"id": "C52", "title": "Array iteration visits every element in order", "statement": "`do:` and `doIndexes:` on an array evaluate the block once per element (index) in order, and the send answers an ordinary object.", "quantifier": "all arrays in any representation, all blocks", "why_tests_cant": "six internal representations of arbitrary length times arbitrary blocks; a test observes a few arrays and rarely uses the answered object", "anchors": ["src/som/primitives/array_primitives.py: _do, _do_indexes", "src/som/interpreter/bc/frame.py"]}
{"id": "C53", "title": "Absolute value, maximum and minimum", "statement": "`abs` answers the absolute value of every integer; `max:` and `min:` answer the operand with the larger/smaller value, for every mix of Integer and BigInteger operands.", "quantifier": "all integers in all representations, both runtimes", "why_tests_cant": "the failing operand is a single value out of 2^64", "anchors": ["src/som/vmobjects/integer.py: prim_abs", "src/som/vmobjects/biginteger.py: prim_abs", "src/som/primitives/integer_primitives.py: _min, _max, _abs"]}
{"id": "C54", "title": "The class hierarchy is Smalltalk's", "statement": "At any time after the VM has started, every class a program can reach is either an ordinary class that is the sole instance of its own metaclass (named `X class`, whose superclass is the class of X's superclass), or such a metaclass; `Object` is the only class without superclass, `Object class` inherits from `Class`, and the class of `Metaclass class` is `Metaclass`. Hence every object understands the methods of Object and every class those of Class.", "quantifier": "all class libraries on the class path, all histories of starting, loading (also failing), entering classes in the shell and setting globals", "why_tests_cant": "the set of class files and the order of loading, including failures halfway, are unbounded", "anchors": ["src/som/vm/universe.py: _initialize_object_system, new_metaclass_class, new_system_class, _initialize_system_class, load_class", "src/som/compiler/class_generation_context.py: assemble, assemble_system_class"]}
{"id": "C55", "title": "Loading a class gives the class of its file, once", "statement": "Loading a class by name answers the class its file on the class path describes: that name, that superclass (loaded first), the superclass's fields followed by its own, on both sides. Loading it again answers the same class; a class does not change once made; loading always ends.", "quantifier": "all class libraries, class paths, states of the globals and orders of loading", "why_tests_cant": "class libraries and histories are unbounded; superclass chains can have any length or be cyclic", "anchors": ["src/som/vm/universe.py: load_class, _load_class, _load_system_class", "src/som/compiler/sourcecode_compiler.py", "src/som/compiler/parser.py: classdef, _superclass", "src/som/compiler/class_generation_context.py"]}
{"id": "C56", "title": "A class has the methods of its file", "statement": "After loading, the method found in a class for a selector is the last method its file defines for it; if that is declared primitive, the primitive of the VM; and nothing else.", "quantifier": "all class files, selectors and sets of VM primitives, both sides", "why_tests_cant": "the interplay of selectors of the file and of the primitive table is unbounded", "anchors": ["src/som/vmobjects/clazz.py: set_instance_invokables, add_primitive, load_primitives, needs_primitives", "src/som/primitives/known.py", "src/som/primitives/primitives.py: install_primitives_in", "src/som/compiler/class_generation_context.py: add_instance_method"]}
{"id": "C57", "title": "A message reaches the method that was found for it", "statement": "A send runs the method or primitive that lookup found with exactly the receiver and the arguments, in both interpreters and for every number of arguments, and in the bytecode interpreter replaces them on the stack by the result; `value` messages run blocks of any number of parameters.", "quantifier": "all kinds of methods and primitives, all VM primitives, all receivers, argument lists and stacks, both interpreters", "why_tests_cant": "the pairing of entry points with numbers of arguments must hold for each primitive and every arity", "anchors": ["src/som/vmobjects/primitive.py", "src/som/vmobjects/method_trivial.py", "src/som/vmobjects/method_ast.py: invoke_1, invoke_2, invoke_3, invoke_args", "src/som/vmobjects/method_bc.py: invoke_n", "src/som/interpreter/ast/nodes/dispatch.py", "src/som/interpreter/bc/interpreter.py: send_1, send_2, send_3, send_n", "src/som/primitives", "src/som/vmobjects/block_bc.py: block_evaluation_primitive"]}
{"id": "C58", "title": "Class definitions are read as the grammar says", "statement": "A class file is accepted exactly if it is a class definition of the grammar, and the class has the name, superclass, fields and methods that the grammar gives it; a line typed into the shell is evaluated exactly if it is an expression.", "quantifier": "all class texts and shell lines, both parsers", "why_tests_cant": "the set of texts is infinite", "anchors": ["src/som/compiler/parser.py: classdef, _superclass, _instance_fields, _class_fields, _pattern", "src/som/vm/shell.py: start"]}
{"id": "C59", "title": "The command line is read as documented", "statement": "Options before the program set the class path (the last one given counts, the current directory if none), dumping and garbage collection; the first other word names the program, whose directory is searched first, and everything after it is handed to the program; help and a class path option without a path print the usage and exit; without a program the shell starts.", "quantifier": "all lists of arguments", "why_tests_cant": "options can be repeated and interleaved with arbitrary words without bound", "anchors": ["src/som/vm/universe.py: handle_arguments, setup_classpath, _print_usage_and_exit, interpret", "src/rlib/osext.py: path_split"]}
{"id": "C60", "title": "The shell evaluates each line typed", "statement": "Each line typed is evaluated as a statement of its own in a class of its own, `it` being the value of the last line that had one; an error in a line leaves the session as it was; empty lines are ignored; `quit` or the end of the input ends the session.", "quantifier": "all sessions: sequences of lines, outcomes of their evaluation, and ways in which the operating system delivers the bytes", "why_tests_cant": "sessions and the cutting of input into reads are unbounded", "anchors": ["src/som/vm/shell.py: Shell.start", "src/rlib/osext.py: raw_input, _read_raw"]}
{"id": "C61", "title": "Inlining blocks cannot be observed", "statement": "A program gives the same outcome, leaves the same objects and makes the same calls whether the literal blocks of its conditionals and loops are evaluated as blocks or compiled into the method around them: variables, blocks that capture them, self, and returns from nested blocks behave the same.", "quantifier": "all programs with methods, blocks that capture variables, conditionals, loops, objects and non-local returns; all arguments, objects at the start and numbers of steps", "why_tests_cant": "programs, nestings of inlined and not inlined blocks, and runs are unbounded; a difference shows only where a captured variable, a loop and an inlined block meet", "anchors": ["src/som/compiler/ast/parser.py: _try_inlining_if, _try_inlining_while", "src/som/compiler/method_generation_context.py: inline_locals, merge_into_scope", "src/som/compiler/bc/bytecode_generator.py", "src/som/interpreter/ast/frame.py: create_frame_args", "src/som/interpreter/ast/nodes/specialized/literal_while.py, literal_if.py", "src/som/vmobjects/block_ast.py"]}
{"id": "C62", "title": "A class file becomes safe bytecode whose names mean what the text says", "statement": "For every text that is accepted as a class: each method has as many parameters, and each message as many arguments, as the selector says; its bytecode is well-formed and never leaves its operand stack; and it reads and writes exactly the variables and fields that its names mean in the text, where the innermost declaration counts, in the order of the text. A text is rejected exactly if a declaration repeats a name, a parameter is called self, or an assignment is to a name that is not declared; the error is reported as one of the text.", "quantifier": "all texts, all fields of the class and its superclasses, all executions of the methods and their blocks", "why_tests_cant": "texts, nestings of blocks and declarations that hide one another are unbounded; the property is about scanner, parser, name resolution, compiler and interpreter together", "anchors": ["src/som/compiler/lexer.py: Lexer.get_sym", "src/som/compiler/parser.py: ParserBase.classdef, method, pattern", "src/som/compiler/bc/parser.py: _gen_push_variable, _gen_pop_variable, _result, nested_block", "src/som/compiler/bc/method_generation_context.py: find_var", "src/som/compiler/method_generation_context.py: add_argument, add_local, inline_locals, get_qualified_name", "src/som/compiler/class_generation_context.py: has_field, get_field_index"]}
{"id": "C63", "title": "Syntax errors are reported where they are, with the line of the source", "statement": "Whatever the parser has read of a text, the position it reports (line, column, number of characters) is the one right after the token that it stands at, and the line it shows is the line on which this token ends; the message of a syntax error consists of the file, this position, the text of the error with the symbols expected and found, and this line.", "quantifier": "all texts, all sequences of requests to the scanner (reading and looking ahead), all errors and lines", "why_tests_cant": "texts, positions and the interleaving of reading and looking ahead are unbounded; a test sees one error in one text", "anchors": ["src/som/compiler/lexer.py: Lexer.get_source_coordinate, _fill_buffer, get_raw_buffer, peek, get_sym", "src/som/compiler/parse_error.py: ParseError.__init__, __str__, ParseErrorSymList", "src/som/compiler/symbol.py: symbol_as_str", "src/som/compiler/parser.py: ParserBase._expression, _expect"]}
{"id": "C64", "title": "Both interpreters do the same with the same text", "statement": "A text of a class is read as the same class by both interpreters, its names are resolved to the same variables, fields and globals, and each of its methods and blocks gives the same results and effects when it is executed as bytecode and as a tree.", "quantifier": "all texts of classes, all methods and blocks in them, all systems of objects, classes and primitives, all depths of calls", "why_tests_cant": "the test suite runs some classes on each interpreter; a difference shows only on a text with the construct on which the two parsers, resolutions or compilers differ", "anchors": ["src/som/compiler/ast/parser.py: Parser._variable_read, _variable_write, _assignments, _primary, _block_body, _result", "src/som/compiler/ast/method_generation_context.py: get_variable, get_context_level, get_self_read, get_object_field_read", "src/som/compiler/bc/parser.py: Parser._gen_push_variable, _gen_pop_variable", "src/som/compiler/bc/method_generation_context.py: find_var"]}
{"id": "C65", "title": "The listing printed by -d shows the code", "statement": "For every class that is loaded with -d, the listing has an entry for each of its methods, and the entry of a method has one line for each of its instructions, in order, with its offset, its name and the variable, field, constant, selector, jump target or nested block it refers to.", "quantifier": "all classes, all methods the compiler can produce, all depths of nested blocks", "why_tests_cant": "the tests look at the listings of a few methods; every instruction, operand and nesting must be covered, for code of any length", "anchors": ["src/som/compiler/bc/disassembler.py: dump, dump_method, dump_bytecode", "src/som/compiler/ast/disassembler.py: dump, dump_method", "src/som/interpreter/bc/bytecodes.py: bytecode_as_str, bytecode_length", "src/som/vm/universe.py: load_class, load_system_class"]}
{"id": "C66", "title": "A program has one outcome, the same in both interpreters", "statement": "Sending a message, or evaluating a block, in any state of the VM has at most one outcome: a value or an exception, together with the state of all objects, variables and globals and of the outside world then. The bytecode interpreter and the AST interpreter have the same outcome, unless one of them complains with a Python error about a condition that is no boolean or an increment of something that is no number; if one of them does not end, neither does the other.", "quantifier": "all programs that the compilers accept (without assignments of several variables at once and without decrementing by the literal 1 where it differs), all classes and primitives, all states, all messages, runs of any length", "why_tests_cant": "the test suites compare the two interpreters on the programs of the suites only; equality of outcomes and of termination is about all programs, all heaps and unbounded runs", "anchors": ["src/som/interpreter/bc/interpreter.py:interpret", "src/som/interpreter/ast/nodes/", "src/som/interpreter/send.py:lookup_and_send_2", "src/som/interpreter/ast/nodes/dispatch.py:CachedDnuNode", "src/som/vmobjects/method_bc.py:BcMethodNLR", "src/som/interpreter/ast/nodes/return_non_local_node.py:CatchNonLocalReturnNode", "src/som/vmobjects/clazz.py:lookup_invokable", "src/som/vmobjects/block_bc.py:BcBlock"]}
{"id": "C67", "title": "Returns from blocks arrive, and enclosing variables are there", "statement": "Whatever messages are sent and whatever blocks are evaluated, in whatever order, a program never ends because a return from a block finds no method waiting for it, and never because a variable, the receiver or the method that a block refers to is missing: every call ends with a value, with a Python error that a message or a primitive raised, or not at all. A return from a block of a method that is still running goes to exactly that activation. After a call from outside nothing is left running.", "quantifier": "all programs that the compiler accepts, all nestings and inlinings of blocks, all histories of calls, recursion of any depth, all primitives that make no blocks", "why_tests_cant": "whether a context is long enough depends on how blocks were nested, inlined, stored and called later; tests have a few nestings and few histories", "anchors": ["src/som/interpreter/bc/interpreter.py:_do_return_non_local", "src/som/interpreter/bc/frame.py:get_block_at", "src/som/vmobjects/method_bc.py:BcMethodNLR", "src/som/compiler/method_generation_context.py:make_catch_non_local_return", "src/som/interpreter/ast/nodes/return_non_local_node.py", "src/som/interpreter/ast/nodes/contextual_node.py:determine_block"]}
{"id": "C68", "title": "What a message does while a program runs", "statement": "A message runs the method of the nearest class of the receiver's class chain that has one of its name, with the receiver and the arguments in a new frame; if there is none, doesNotUnderstand:arguments: is sent to the receiver with the selector and a new array of exactly the arguments. A message to super starts above the class in which the running method is defined, whatever the class of the receiver. Evaluating a block runs its code in the context in which the block was made. An unknown global is reported to the receiver of the surrounding method by unknownGlobal:, and a return from a block whose method has ended by escapedBlock:.", "quantifier": "all programs, all class hierarchies and method tables, all states, at every depth of calls", "why_tests_cant": "which method runs depends on the whole hierarchy and on the frames; tests fix both", "anchors": ["src/som/interpreter/bc/interpreter.py:_do_super_send", "src/som/interpreter/bc/interpreter.py:send_does_not_understand", "src/som/interpreter/bc/interpreter.py:get_self_dynamically", "src/som/interpreter/send.py:lookup_and_send_3", "src/som/interpreter/ast/nodes/dispatch.py:CachedDnuNode", "src/som/interpreter/ast/nodes/global_read_node.py", "src/som/interpreter/ast/nodes/message/super_node.py"]}
{"id": "C69", "title": "Running a program is evaluating its source", "statement": "What a method or block does when it runs is what its source text says when read expression by expression: receivers and arguments from left to right, assignments after their value, the blocks of control structures (ifTrue:, and:, whileTrue: ...) evaluated in place as often as the structure says, all other blocks created and evaluated when they are sent value, variables those of the enclosing scope that declares them, ^ returning from the method around, the receiver as the answer of a method without ^. Compiling to trees or bytecode, with inlined blocks, renumbered variables, shortcuts for + 1, fused field increments and trivial methods, changes nothing of this.", "quantifier": "all programs with all their methods and blocks nested at any depth, all states, all calls at every depth of calls", "why_tests_cant": "a test compares one program with the outcome its author expects; here the meaning of all programs is compared with an independent interpreter of the source", "anchors": ["src/som/compiler/ast/parser.py:Parser", "src/som/compiler/ast/method_generation_context.py:assemble", "src/som/compiler/method_generation_context.py:get_inlined_local", "src/rtruffle/abstract_node.py:adapt_after_inlining", "src/som/interpreter/ast/nodes/specialized/literal_if.py", "src/som/interpreter/ast/nodes/specialized/literal_while.py", "src/som/interpreter/ast/nodes/variable_node.py", "src/som/compiler/bc/method_generation_context.py:assemble", "src/som/interpreter/bc/interpreter.py:interpret"]}
{"id": "C70", "title": "super looks above the class in whose text it is written", "statement": "A message to super, in a method or in a block nested at any depth in it, is looked up from the superclass of the class whose text contains the method: not from the class of the receiver, nor from that of the object that evaluates the block, and also when the block is evaluated later, by another method or by a primitive. Installing a method hands its class to all blocks that it can create.", "quantifier": "all programs, methods and blocks, all receivers, all states that can be reached, all calls at every depth of calls, both interpreters", "why_tests_cant": "whether a block still carries the class of its method depends on how it got to the place where it is evaluated; tests follow some of these ways only", "anchors": ["src/som/vmobjects/method_bc.py:set_holder", "src/som/vmobjects/method_ast.py:set_holder", "src/som/vmobjects/clazz.py:set_instance_invokables", "src/som/compiler/ast/parser.py:_primary", "src/som/interpreter/bc/interpreter.py:_do_super_send", "src/som/interpreter/ast/nodes/message/super_node.py"]}
{"id": "C71", "title": "Messages answered by primitives do what they say in running programs", "statement": "In a running program, value, value: and value:with: evaluate the block; the messages to booleans evaluate the argument they choose exactly once and the other not at all; whileTrue: and whileFalse: evaluate condition and body in turn until the condition answers something else, and answer nil; to:do:, downTo:do: and to:by:do: evaluate the block for the numbers of the progression in turn and answer the receiver; do: and doIndexes: go through an array in order, up to the length it had at the beginning; perform: and perform:withArguments: send the message; arithmetic and comparison of integers is exact; at: and at:put: read and write one element. A return or an error out of a block ends the primitive at once, with what was done so far. With these primitives the two interpreters agree with each other and with the source, returns arrive, and super looks above the class of its method, without assumptions about primitives.", "quantifier": "all programs, all blocks whatever they do (errors, returns from the method around, changes of the array or of variables), all states, all receivers and arguments, both interpreters (counting loops: the bytecode interpreter, in which they are primitives), both platforms", "why_tests_cant": "the primitives call back into the program, which may do anything before it comes back or not come back; tests use blocks that are well behaved", "anchors": ["src/som/primitives/block_primitives.py", "src/som/primitives/true_primitives.py", "src/som/primitives/false_primitives.py", "src/som/primitives/bc/integer_primitives.py", "src/som/primitives/array_primitives.py", "src/som/primitives/object_primitives.py", "src/som/primitives/integer_primitives.py", "src/som/vmobjects/block_bc.py:block_evaluate"]}
{"id": "C72", "title": "A message runs the method that the class files say", "statement": "Whatever classes were loaded before, in whatever order and with whatever failures, a message to an instance of a class runs the method of the nearest class whose file has it, where the superclasses are those that the files name; of several methods with one name the last counts, and primitives of the VM go before methods of the file in classes that have primitives. The same holds for messages to classes (then to Class and Object), for super in a method of a class, and for nil, booleans, integers, doubles, strings, symbols, arrays and blocks. If no file has the method, doesNotUnderstand:arguments: of the nearest class is run. Whatever the files of Integer, Double, True and False contain, arithmetic and control messages to their instances are answered by the VM's primitives.", "quantifier": "all sets of class files and class paths for which the start succeeds (in which no file names True, False or a block class as superclass), all sequences of loading, entering classes in the shell and setting other globals, all classes, selectors, receivers and arguments", "why_tests_cant": "which method is run depends on every file in the chain and on everything that was loaded before; tests have one library and one order of loading", "anchors": ["src/som/vm/universe.py: Universe._initialize_object_system, load_class, _load_system_class, _make_block_class", "src/som/compiler/class_generation_context.py: ClassGenerationContext", "src/som/vmobjects/clazz.py: Class.lookup_invokable, load_primitives, add_primitive", "src/som/primitives/known.py: primitives_for_class"]}
{"id": "C73", "title": "A program does what the texts of its class files say", "statement": "A program is given by the texts of its class files in the directories of the class path. A message to an instance of a class evaluates the body that is written for its selector in the text of the nearest class that has one (the last one, if there are several); in this body the name of a field stands for the field of the object with that name. An object has the fields that are declared in the texts of its class and its superclasses, those of superclasses first, so that inherited methods and those of the class agree on which field is which; the same holds for the class side. Both interpreters give the value of this evaluation.", "quantifier": "all class paths, texts and orders of loading for which the start succeeds, all classes, selectors, receivers, arguments and states of the program, both interpreters", "why_tests_cant": "the way from characters to results goes through scanner, parser, class assembly, name resolution, two compilers and two interpreters; tests see the end of it for a few programs, and cannot tell for all hierarchies that every slot number means the same field in every class", "anchors": ["src/som/vm/universe.py: Universe.load_class, _load_class, _load_system_class", "src/som/compiler/parser.py: ParserBase.classdef, _superclass, _instance_fields, _class_fields", "src/som/compiler/class_generation_context.py: ClassGenerationContext.set_super_class, assemble, assemble_system_class", "src/som/compiler/bc/method_generation_context.py, src/som/compiler/ast/method_generation_context.py", "src/som/vmobjects/clazz.py: Class.get_number_of_instance_fields, set_instance_fields"]}
{"id": "C74", "title": "Fields of the class side have a place", "statement": "A class whose file declares fields after the line of dashes keeps them in itself: after any start and any sequence of loading classes, entering classes in the shell and setting globals, the class has exactly one slot for every field of its class side, inherited ones included. A field that was never stored to is nil, one that was has the value stored last, whatever the kinds of the values, and neither reading nor storing fails.", "quantifier": "all class paths and files for which the start succeeds, all orders of loading (also loading that fails half-way), all classes, all sequences of reads and writes of fields of the class side", "why_tests_cant": "the number of slots is fixed at the moment the class is made, from whatever its class says at that moment; whether this is before or after the fields are known depends on the order in which the start and later loading make classes, which tests sample for a few library files (none of which declares such fields in a class of the VM)", "anchors": ["src/som/vmobjects/clazz.py: Class.__init__, set_instance_fields", "src/som/vmobjects/object_with_layout.py: ObjectWithLayout.__init__, get_field, set_field, update_layout_to_match_class", "src/som/compiler/class_generation_context.py: ClassGenerationContext.assemble, assemble_system_class", "src/som/vm/universe.py: Universe.new_system_class, _initialize_object_system"]}
{"id": "C75", "title": "Converting between Doubles and Integers", "statement": "`round` of a finite Double answers the nearest Integer, halves away from zero; `asInteger` drops the fraction; `asDouble` answers the Double nearest to the Integer, and `asDouble asInteger` answers the Integer itself whenever it has at most 53 significant bits. Not-a-number and the infinities are errors. Arithmetic on finite Doubles answers the exact result, rounded once.", "quantifier": "all values of binary64, all Integers of any size (CPython)", "why_tests_cant": "there are 2^64 Doubles, and rounding goes wrong at isolated ones (the number just below 0.5, numbers above 2^52 whose sum with 0.5 is rounded up)", "anchors": ["src/som/primitives/double_primitives.py: _round, _as_integer, _sqrt, _positive_infinity", "src/rlib/float.py: round_double, INFINITY", "src/som/vmobjects/double.py: Double", "src/som/primitives/integer_primitives.py: _as_double, _sqrt", "src/som/vmobjects/integer.py: Integer"]}
{"id": "C76", "title": "Integers and Doubles are compared as numbers", "statement": "`<`, `>`, `<=`, `>=`, `=` and `<>` between Integers and Doubles, in any mix, answer what the order of the numbers says, so that exactly one of `<`, `=`, `>` holds, and `=` is symmetric. Not-a-number is not less, greater or equal to anything.", "quantifier": "all Integers, all values of binary64, all pairs (CPython)", "why_tests_cant": "comparisons convert the Integer first, and the conversion rounds only above 2^53; all pairs have to agree", "anchors": ["src/som/vmobjects/integer.py: prim_less_than, prim_less_than_or_equal, prim_greater_than, prim_greater_than_or_equal, prim_equals, prim_unequals", "src/som/vmobjects/double.py: prim_less_than, prim_equals, prim_unequals, _get_float"]}
{"id": "C77", "title": "Square roots", "statement": "`sqrt` of an Integer answers an Integer exactly when the Integer is a square, and then its root; otherwise it answers a Double. `sqrt` of a positive Double answers the Double nearest to the root. Negative numbers are errors.", "quantifier": "all Integers, all values of binary64 (CPython)", "why_tests_cant": "the decision is taken after two roundings; that they cannot turn a root with a fraction into an integer needs bounds for all numbers", "anchors": ["src/som/primitives/integer_primitives.py: _sqrt", "src/som/primitives/double_primitives.py: _sqrt"]}
{"id": "C78", "title": "Methods may rewrite their trees while they run", "statement": "In the syntax-tree interpreter the expressions of a method are specialised when they first run, also while calls of the same method are still going on. Whatever is called in whatever order, the tree of every method keeps standing for the text of the method, an expression being evaluated goes on as the same expression, and no specialisation fails. Every expression is specialised at most once.", "quantifier": "all programs, all sequences of calls, evaluations and specialisations, with any nesting", "why_tests_cant": "which nodes are replaced while they run depends on the nesting of the calls; the trees share nodes with the ones they replace", "anchors": ["src/rtruffle/node.py: Node.adopt_child, adopt_children, replace", "src/rtruffle/abstract_node.py: _generate_replace_method", "src/som/interpreter/ast/nodes/variable_node.py: UninitializedReadNode, UninitializedWriteNode", "src/som/interpreter/ast/nodes/message/uninitialized_node.py: UninitializedMessageNode", "src/som/interpreter/ast/nodes/global_read_node.py: _UninitializedGlobalReadNode"]}
{"id": "C79", "title": "What an object is never changes", "statement": "Whatever a program runs, in both interpreters and however the call ends, every object that was there before is still there and keeps its class; integers, doubles and strings keep their values, arrays their length, instances the number of their fields, blocks their code and context. A global that has a value never loses it, and output is only added to.", "quantifier": "all programs, all calls, all states, all ways in which a call can end", "why_tests_cant": "immutability is about everything that might run in between; a test can only look at an object after particular calls", "anchors": ["src/som/primitives/*.py", "src/som/vmobjects/array.py: Array.set_indexable_field, set_all", "src/som/vmobjects/object_with_layout.py: ObjectWithLayout.set_field, inc_field", "src/som/vm/universe.py: set_global, std_print, std_println, error_print, error_println"]}
{"id": "C80", "title": "Messages about data change what they should and nothing else", "statement": "In a running program, messages to strings, arrays, objects and the system that primitives answer have exactly one outcome: concatenation, length, equality, characters and parts of strings, conversion to symbols and back, `new`, `==`, `class`, reading and writing fields by number, making, copying and filling arrays, arrays of the Integers from one to another, Integers as texts and back, superclasses and names of classes, fields by name, kinds of characters, reading and writing globals, printing. A message that answers a new object changes nothing else, one that stores changes one place, a copy of an array is apart from the original, an array that a block fills gets what the block answers, after the block has answered for the last time; with arguments of the wrong kind concatenating and printing raise an error and change nothing. Strings and symbols with the same characters are equal and have the same hashcode.", "quantifier": "all programs, all states, all receivers and arguments of the right kind, all texts, arrays and indices within them", "why_tests_cant": "that nothing else changes is a statement about the whole state, for all states", "anchors": ["src/som/primitives/string_primitives.py", "src/som/primitives/symbol_primitives.py", "src/som/primitives/object_primitives.py", "src/som/primitives/class_primitives.py", "src/som/primitives/array_primitives.py", "src/som/primitives/system_primitives.py", "src/som/primitives/integer_primitives.py: _to, _from_string", "src/som/primitives/class_primitives.py: _super_class", "src/som/vmobjects/array.py: _set_all_with_block", "src/som/primitives/object_primitives.py: _inst_var_named", "src/som/primitives/string_primitives.py: _is_whitespace, _is_letters, _is_digits", "src/som/primitives/string_primitives.py: _hashcode"]}
{"id": "C81", "title": "What is compiled is what is written", "statement": "The method that the compiler makes of a text has the messages of the text, in the same order and nested the same way, with the same receivers, arguments, assignments, blocks and returns. Each name stands for the innermost declaration of it, then for a field, then for a global. Numbers and symbols are the ones written, every string, double and large integer is an object of its own. This holds for both parsers, for whole class files, and for the method that runs when a message is sent.", "quantifier": "all texts of methods and classes, all fields, all nestings of blocks", "why_tests_cant": "parsers emit code while they read, with special cases for `+ 1`, `- 1` and `^ self`; tests try a few texts", "anchors": ["src/som/compiler/bc/parser.py: _expression, _primary, _messages, _try_inc_or_dec_bytecodes, _literal, _result, _gen_push_variable, _gen_pop_variable, nested_block", "src/som/compiler/ast/parser.py: _expression, _assignments, _primary, _messages, _variable_read, _variable_write, nested_block", "src/som/compiler/parser.py: _method, _literal_integer, _literal_double"]}
{"id": "C82", "title": "The exit status tells how the program ended", "statement": "The status with which the process ends is 0 when the program or the shell comes to its end, the number given to `exit:` when the program exits, and 1 when an error ends it. The program runs only if the VM was started, and it gets its own name and the arguments after it. If the VM cannot be started, the status is not 0; this is so whenever one of the VM's own classes is in none of the directories of the class path, and without Object the status is 200. A wish for help gives 0. The two entry points, for Python and for RPython, give the same status.", "quantifier": "all command lines made of options, a program and arguments; all contents of the directories; all programs and all ends of them", "why_tests_cant": "Scripts and test runners rely on the status for every program and installation; tests see a few of them, and only one of the entry points.", "anchors": ["src/main.py", "src/main_rpython.py: entry_point", "src/som/vm/universe.py: main, interpret, exit, _load_system_class, _initialize_object_system", "src/rlib/exit.py: Exit"]}
{"id": "C83", "title": "loadFile: answers what is in the file", "statement": "`loadFile:` answers a string with the whole contents of the file, however the system divides them among the reads, or `nil` if the file cannot be opened or read; no exception leaves it, and the file that was opened is closed exactly once.", "quantifier": "all files, all ways in which reads return parts of them, all points at which opening or reading fails", "why_tests_cant": "How much a read returns and when it fails is up to the system; tests see files that come in one piece and never fail.", "anchors": ["src/som/primitives/system_primitives.py: _load_file", "src/rlib/streamio.py: readall_from_stream"]}
{"id": "C84", "title": "Calling a method of a class from Python calls that method", "statement": "`execute_method` with the name of a class and a selector starts the VM, loads the class, and calls, with the class as receiver, the method that the class of the class finds: its own class-side method of the class file, or else the nearest inherited one, up to those of Class and Object. If there is no such class or no such method, nothing is called and an error says so; errors of the start and of the loading are not hidden.", "quantifier": "all contents of the class path for which the VM starts, all names of classes, all selectors", "why_tests_cant": "All tests of the interpreter go through this call; they cannot see if it calls another method for some other class, hierarchy or selector.", "anchors": ["src/som/vm/universe.py: execute_method, load_class", "src/som/vmobjects/clazz.py: lookup_invokable"]}
{"id": "C85", "title": "What a program prints arrives", "statement": "Whatever a program prints with `printString:` and `printNewline` arrives at the standard output, and what it prints with `errorPrint:` and `errorPrintln:` at the error output, each in the order of printing, complete and without anything else, as UTF-8: who reads the output as UTF-8 gets the texts. A write that fails raises an error and nothing is printed after it.", "quantifier": "all sequences of printing messages with any texts; all numbers of bytes that the system takes at a time", "why_tests_cant": "How many bytes a write takes is up to the system and depends on load and on the reader of a pipe; and there are too many texts to try them all.", "anchors": ["src/som/vm/universe.py: std_print, std_println, error_print, error_println", "src/som/primitives/system_primitives.py: _print_string, _print_newline, _error_print, _error_println", "src/rlib/string_stream.py: encode_to_bytes"]}
{"id": "C86", "title": "The clock of a program", "statement": "`time` answers the milliseconds and `ticks` the microseconds since the VM was made, correctly rounded and without the fraction: 0 at the start, never negative, and never less than what was answered before.", "quantifier": "all moments of the start and all later moments, as the system's clock gives them in Doubles", "why_tests_cant": "It is about all moments and pairs of moments, and about rounding; a test sees a few of them, and does not set the clock of the machine.", "anchors": ["src/som/primitives/system_primitives.py: _time, _ticks", "src/som/vm/universe.py: Universe.__init__ (start_time)"]}
{"id": "C87", "title": "Looking at classes does not change them", "statement": "`fields` of a class answers the names of its fields, those of its superclass first, and `methods` its methods; whatever a program does with the answers, the classes keep their fields and methods, fields are found by their names, and classes loaded later inherit the fields that the source of their superclass declares.", "quantifier": "all sequences of loading classes, asking them for fields and methods, making arrays and storing into arrays", "why_tests_cant": "It is about all histories: a test that looks at the answers does not see who else uses the same array.", "anchors": ["src/som/primitives/class_primitives.py: _fields, _methods", "src/som/vmobjects/clazz.py: Class.get_instance_fields, get_instance_invokables, lookup_field_index", "src/som/compiler/class_generation_context.py: set_super_class, assemble"]}
{"id": "C88", "title": "Equal objects have equal hash codes", "statement": "If `a = b` answers true, `a hashcode` and `b hashcode` answer the same Integer, so that dictionaries and sets find equal keys; objects that are compared by identity have hash codes of their own.", "quantifier": "all pairs of objects of a run: numbers, strings, symbols and others; all hash functions of the platform", "why_tests_cant": "Hash codes depend on addresses and on the platform, and a test compares a few objects that may happen to be the same one.", "anchors": ["src/som/primitives/object_primitives.py: _hashcode, _equals", "src/som/primitives/string_primitives.py: _hashcode, _equals", "src/som/primitives/symbol_primitives.py: _equals", "src/rlib/objectmodel.py: compute_hash, compute_identity_hash", "src/som/vmobjects/double.py: Double.prim_equals"]}
