{
 "claims": [
  {
   "property": "C01",
   "status": "proved",
   "theorems": [
    "PySOM.Num.C01_add_exact",
    "PySOM.Num.C01_subtract_exact",
    "PySOM.Num.C01_multiply_exact"
   ],
   "note": "Both runtimes, all mixes of Integer and BigInteger. rbigint operations are trusted to be exact."
  },
  {
   "property": "C02",
   "status": "partial",
   "theorems": [
    "PySOM.Num.C02_division_laws_partial",
    "PySOM.Num.C02_laws_determine",
    "PySOM.Num.C02_zero_divisor",
    "PySOM.Num.C02_violated_min_by_minus_one",
    "PySOM.Mach.C02_messages_partial",
    "PySOM.Mach.C02_zero_messages"
   ],
   "note": "All pairs except minInt by -1 on RPython, where the machine division traps (witness). Also as messages of running programs (C02_messages_partial, C02_zero_messages)."
  },
  {
   "property": "C03",
   "status": "partial",
   "theorems": [
    "PySOM.Num.C03_division_partial",
    "PySOM.Num.C03_remainder_partial",
    "PySOM.Num.C03_violated_big_rem_big",
    "PySOM.Num.C03_violated_big_rem_big_witness",
    "PySOM.Num.C03_increment_exact",
    "PySOM.Num.C03_decrement_partial",
    "PySOM.Num.C03_violated_big_decrement",
    "PySOM.Mach.C03_messages_partial"
   ],
   "note": "+ - * (C01), /, %, increment proved; rem: of two BigIntegers always answers 0 and decrement answers 1 - x (both characterised exactly as violations). / and % also as messages of running programs (C03_messages_partial)."
  },
  {
   "property": "C04",
   "status": "proved",
   "theorems": [
    "PySOM.Num.C04_comparisons",
    "PySOM.Num.C04_total_order",
    "PySOM.Num.C04_not_equal"
   ],
   "note": ""
  },
  {
   "property": "C05",
   "status": "partial",
   "theorems": [
    "PySOM.Num.C05_and",
    "PySOM.Num.C05_xor_partial",
    "PySOM.Num.C05_bits_determine",
    "PySOM.Num.C05_shift_left",
    "PySOM.Num.C05_shift_right",
    "PySOM.Num.C05_shift_right_negative_rpython",
    "PySOM.Num.C05_violated_shift_right_platforms",
    "PySOM.Num.C05_32_bit_views",
    "PySOM.Num.C05_32_bit_views_unique",
    "PySOM.Num.C05_violated_big",
    "PySOM.Mach.C05_and_message",
    "PySOM.Mach.C05_xor_message_partial",
    "PySOM.Mach.C05_shift_left_message",
    "PySOM.Mach.C05_shift_right_message_partial",
    "PySOM.Mach.C05_32_bit_messages"
   ],
   "note": "Integers proved on both runtimes bit by bit; BigInteger receivers fail or answer wrong 32-bit views (witnesses); CPython's >>> of negative receivers is arithmetic. Also as messages of running programs (Props/PrimMessages.lean)."
  },
  {
   "property": "C06",
   "status": "proved",
   "theorems": [
    "PySOM.Num.C06_print_parse",
    "PySOM.Num.C06_text_is_decimal"
   ],
   "note": "Text syntax restricted to blanks, sign, ASCII digits."
  },
  {
   "property": "C07",
   "status": "partial",
   "theorems": [
    "PySOM.Num.C07_increment_agrees",
    "PySOM.Num.C07_decrement_agrees_partial",
    "PySOM.Num.C07_violated_big_decrement"
   ],
   "note": "Violated for decrement of BigIntegers."
  },
  {
   "property": "C08",
   "status": "partial",
   "theorems": [
    "PySOM.Arr.C08_arrays_refine_lists_partial",
    "PySOM.Arr.C08_violated",
    "PySOM.Arr.C08_refused_store_changes_nothing"
   ],
   "note": "Refinement to lists for every history without a refused store; the code refuses (AssertionError) a non-Double stored in an all-Double array and a non-Boolean in an all-Boolean array (witness C08_violated)."
  },
  {
   "property": "C09",
   "status": "proved",
   "theorems": [
    "PySOM.Arr.C09_representation_invariant"
   ],
   "note": ""
  },
  {
   "property": "C10",
   "status": "proved",
   "theorems": [
    "PySOM.Arr.C10_copy_same_content",
    "PySOM.Arr.C10_no_aliasing"
   ],
   "note": ""
  },
  {
   "property": "C11",
   "status": "partial",
   "theorems": [
    "PySOM.Arr.C11_putAll_value",
    "PySOM.Arr.C11_putAll_block_partial",
    "PySOM.Arr.C11_violated_lost_result",
    "PySOM.Arr.C11_violated_boolean"
   ],
   "note": "putAll: with a value fully proved; with a block an exact (iff) characterisation of when it is right, plus witnesses of lost results. The block is assumed not to store into the array being filled."
  },
  {
   "property": "C12",
   "status": "partial",
   "theorems": [
    "PySOM.Arr.C12_from_values_partial",
    "PySOM.Arr.C12_violated_nil_and_integer",
    "PySOM.Arr.C12_violated_nil_and_boolean"
   ],
   "note": "Exact (iff) characterisation; violated for nil mixed with one primitive kind."
  },
  {
   "property": "C13",
   "status": "partial",
   "theorems": [
    "PySOM.Arr.C13_extend_partial",
    "PySOM.Arr.C13_violated"
   ],
   "note": "Violated: homogeneous arrays can only be extended by the same kind."
  },
  {
   "property": "C14",
   "status": "partial",
   "theorems": [
    "PySOM.Arr.C14_at_in_and_out_of_bounds",
    "PySOM.Arr.C14_put_out_of_bounds",
    "PySOM.Arr.C14_put_on_zero_length_array",
    "PySOM.Arr.C14_violated_index_zero",
    "PySOM.Arr.C14_negative_index_wraps"
   ],
   "note": "Bounds for indices >= 1 proved for every reachable array; index 0/negative wraps in all but the empty representation (witness)."
  },
  {
   "property": "C15",
   "status": "partial",
   "theorems": [
    "PySOM.Obj.C15_records_partial",
    "PySOM.Obj.C15_failure_iff",
    "PySOM.Obj.C15_records_synced",
    "PySOM.Obj.C15_violated_stale_layout",
    "PySOM.Obj.C15_violated_many_fields"
   ],
   "note": "Refinement to records for every history of a class with at most 32 fields that does not fail, exact (iff) characterisation of the failing stores, full refinement when each store is preceded by dispatch bringing the object up to date; two witnesses of violation (stale layout assertion, 33 primitive fields)."
  },
  {
   "property": "C16",
   "status": "partial",
   "theorems": [
    "PySOM.Obj.C16_instVarAt_partial",
    "PySOM.Obj.C16_violated_index_zero",
    "PySOM.Obj.C16_instVarNamed_partial",
    "PySOM.Obj.C16_violated_unknown_name",
    "PySOM.Obj.C16_violated_redeclared",
    "PySOM.Obj.C16_violated_objectSize",
    "PySOM.Obj.C16_reachable_wf"
   ],
   "note": "In-range indices and distinct names proved; index 0/negative, unknown names, redeclared names and objectSize are violated (general theorems or witnesses)."
  },
  {
   "property": "C17",
   "status": "proved",
   "theorems": [
    "PySOM.Cls.C17_lookup_nearest",
    "PySOM.Cls.C17_lookup_repeatable",
    "PySOM.Cls.C17_limit_memo_goes_stale"
   ],
   "note": "Any sequence of lookups after the classes are loaded. Installing a method in a superclass after a memoised lookup is not seen (witness C17_limit_memo_goes_stale); the VM only installs methods while loading a class."
  },
  {
   "property": "C18",
   "status": "partial",
   "theorems": [
    "PySOM.Cls.C18_methods_partial",
    "PySOM.Cls.C18_methods_initially",
    "PySOM.Cls.C18_violated"
   ],
   "note": "The declared methods always come first and in order; memoised inherited methods follow them (witness C18_violated)."
  },
  {
   "property": "C19",
   "status": "proved",
   "theorems": [
    "PySOM.Cls.C19_index_in_range",
    "PySOM.Cls.C19_inherited_index_kept",
    "PySOM.Cls.C19_chain_index_kept",
    "PySOM.Cls.C19_distinct"
   ],
   "note": "Including hierarchies that redeclare a name, where the first declaration wins for compiled code."
  },
  {
   "property": "C20",
   "status": "proved",
   "theorems": [
    "PySOM.HeapQ.C20_push_pop",
    "PySOM.HeapQ.C20_queue_refines_bag",
    "PySOM.HeapQ.C20_drain_sorted"
   ],
   "note": "Every history of pushes and pops refines a bag from which a smallest entry is removed; draining gives a sorted permutation."
  },
  {
   "property": "C21",
   "status": "proved",
   "theorems": [
    "PySOM.Sym.C21_symbols_unique",
    "PySOM.Sym.C21_always_answers"
   ],
   "note": "Any history of interning."
  },
  {
   "property": "C22",
   "status": "proved",
   "theorems": [
    "PySOM.Sym.C22_arity",
    "PySOM.Sym.C22_arity_any"
   ],
   "note": "For every selector the grammar forms and, exactly, for arbitrary symbol strings (the empty symbol counts as an operator)."
  },
  {
   "property": "C23",
   "status": "partial",
   "theorems": [
    "PySOM.Glob.C23_globals_map_partial",
    "PySOM.Glob.C23_robust_reads",
    "PySOM.Glob.C23_violated"
   ],
   "note": "Refinement to a plain map for every history without a failed load:; after a failed load: hasGlobal: answers true and AST reads yield Python None (witness C23_violated); bytecode reads, global: and load: stay right (C23_robust_reads). JIT elidable hints not modelled."
  },
  {
   "property": "C24",
   "status": "partial",
   "theorems": [
    "PySOM.Lex.C24_scanner_meets_spec",
    "PySOM.Lex.C24_tokens_reproduce_source",
    "PySOM.Lex.C24_progress",
    "PySOM.Lex.C24_terminates_partial",
    "PySOM.Lex.C24_file_tokens",
    "PySOM.Lex.C24_file_terminates_partial",
    "PySOM.Lex.C24_violated_unterminated_string",
    "PySOM.Lex.C24_violated_unknown_char",
    "PySOM.Pos.C24_buffered"
   ],
   "note": "The scanner equals an independent specification on every text and every runtime's character classes; tokens reproduce the text; termination holds exactly when no string literal is unterminated. Unterminated strings make the real scanner loop forever (witness)."
  },
  {
   "property": "C25",
   "status": "partial",
   "theorems": [
    "PySOM.Lex.C25_peek_is_transparent_partial",
    "PySOM.Lex.C25_peek_keeps_current",
    "PySOM.Lex.C25_violated_double_peek"
   ],
   "note": "Peeking is transparent for every underlying scanner and every request sequence without two consecutive peeks; a second peek raises ValueError (witness)."
  },
  {
   "property": "C26",
   "status": "proved",
   "theorems": [
    "PySOM.Frame.C26_separate_storage"
   ],
   "note": "Storage assignment for all flag patterns; sizes are exact."
  },
  {
   "property": "C27",
   "status": "proved",
   "theorems": [
    "PySOM.Frame.C27_activation_ast",
    "PySOM.Frame.C27_activation_bc",
    "PySOM.Frame.C27_activation_bc_n",
    "PySOM.Frame.C27_same_start",
    "PySOM.Frame.C27_wrong_number"
   ],
   "note": "All activation paths of both interpreters (invoke_1/2/3/args, invoke_n) for all flag patterns and argument counts."
  },
  {
   "property": "C28",
   "status": "proved",
   "theorems": [
    "PySOM.Scope.C28_nearest",
    "PySOM.Scope.C28_same_resolution",
    "PySOM.Scope.C28_addressing"
   ],
   "note": "Refinement of textbook lexical scoping over all histories of calls, block creations, reads and writes, for the access functions of both interpreters. Name resolution is proved to find the nearest declaration and to be the same in both compilers. Inlined blocks are C32; assignment to self (accepted by the bytecode compiler only) is excluded."
  },
  {
   "property": "C29",
   "status": "proved",
   "theorems": [
    "PySOM.BC.C29_patch_accepts_iff",
    "PySOM.BC.C29_patch_rejects_iff",
    "PySOM.BC.C29_patch_local",
    "PySOM.BC.C29_patch_target",
    "PySOM.BC.C29_emitted_kind",
    "PySOM.BC.C29_emit_patch",
    "PySOM.BC.C29_emit_patch_always",
    "PySOM.BC.C29_backward_rejects_iff",
    "PySOM.BC.C29_backward_target"
   ],
   "note": "Forward jumps (all nine kinds, short and long, also re-patched ones) and backward jumps, for every code length: which bytes change, where the interpreter continues, and exactly which distances are rejected."
  },
  {
   "property": "C30",
   "status": "partial",
   "theorems": [
    "PySOM.Obj.C30_increment_field_partial",
    "PySOM.Obj.C30_violated_field_overflow",
    "PySOM.BC.C30_optimisations_preserve_partial",
    "PySOM.BC.C30_violated_fused_increment"
   ],
   "note": "The optimising generator (inc/dec, fused field increment, dup/pop elimination, return shortcuts, special constants) and a plain generator without these give code with the same runs, provided the increment instructions do what the message does; C30_increment_field_partial establishes that for the storage-level field increment on integer fields that do not overflow. Violations: the fused increment differs for other receivers and for 64-bit overflow."
  },
  {
   "property": "C31",
   "status": "partial",
   "theorems": [
    "PySOM.BC.C31_stack_safe",
    "PySOM.BC.C31_program_partial"
   ],
   "note": "C31_program_partial: for every source method with blocks nested to any depth, no execution of the bytes of the method or of a block that it or its blocks create (after inlining by method_bc.py) underflows the operand stack, exceeds the computed size or meets an invalid instruction. C31_stack_safe: the same for every inliner meeting Inliner.OK, which the inliner of method_bc.py does. Missing only: literal arrays that contain the symbol #ArraySizeLiteralPlaceholder."
  },
  {
   "property": "C32",
   "status": "partial",
   "theorems": [
    "PySOM.BC.C32_bindings_partial",
    "PySOM.BC.C32_accesses_unique",
    "PySOM.BC.C32_violated_argument",
    "PySOM.BC.C32_violated_trivial"
   ],
   "note": "C32_bindings_partial: for every source method with blocks nested to any depth that compiles, the accesses in the bytes of the method and of the blocks it creates, read with the final variables, are exactly the accesses of the source with a scope for every block, in the same order; C32_accesses_unique: they are determined by the bytes. The final variables are distinct if those of the source are. C32_violated_argument, C32_violated_trivial: blocks with arguments, and blocks around a block that is only a field or global, make the compiler fail. Missing: literal arrays that contain the symbol #ArraySizeLiteralPlaceholder; the AST interpreter's inlining."
  },
  {
   "property": "C33",
   "status": "partial",
   "theorems": [
    "PySOM.BC.C33_compiler_correct_partial",
    "PySOM.BC.C33_violated_user_defined_plus"
   ],
   "note": "For every method or block body the generator accepts, every finished run of the compiled bytes corresponds to exactly one evaluation of the source (relational, left-to-right source semantics without stack or jumps) with the same effects, answer or exception, and conversely. Partial: the meaning of the code inlined for literal blocks enters as a parameter (Means), and `e + 1`, `e - 1`, `f := f + 1` are taken as what the machine's instructions do; C33_violated_user_defined_plus shows that this differs from sending + when a class defines its own +."
  },
  {
   "property": "C34",
   "status": "partial",
   "theorems": [
    "PySOM.BC.C34_method_partial",
    "PySOM.BC.C34_block_partial",
    "PySOM.BC.C34_method_boolean_partial",
    "PySOM.BC.C34_violated_setter",
    "PySOM.BC.C34_violated_condition",
    "PySOM.BC.C34_violated_plus",
    "PySOM.BC.C34_violated_minus",
    "PySOM.BC.C34_violated_escaped",
    "PySOM.BC.C34_violated_array",
    "PySOM.BC.C34_violated_assign_self",
    "PySOM.BC.C34_violated_known_global",
    "PySOM.BC.C34_violated_plus_block",
    "PySOM.BC.C34_violated_unknown_global",
    "PySOM.BC.C34_program_partial",
    "PySOM.BC.C34_program_boolean_partial",
    "PySOM.BC.C34_program_answers_partial"
   ],
   "note": "For every program, every depth of calls, and every system around it that only passes on complaints about conditions: all methods and blocks, including blocks changed because a block around them was inlined, have the same outcomes and effects as trees and as bytecode, except that trees may complain about a condition that is not a boolean (C34_program_partial). Missing: literal arrays. The assumptions that the source depends on are needed, since the code violates the property in the places listed (witnesses)."
  },
  {
   "property": "C35",
   "status": "partial",
   "theorems": [
    "PySOM.BC.C35_recognised",
    "PySOM.BC.C35_outer_self",
    "PySOM.BC.C35_bytecode_partial",
    "PySOM.BC.C35_setter_stores",
    "PySOM.BC.C35_violated_setter",
    "PySOM.BC.C35_violated_setter_n",
    "PySOM.BC.C35_violated_unknown_global",
    "PySOM.BC.C35_recognised_trees",
    "PySOM.BC.C35_recognised_blocks",
    "PySOM.BC.C35_trees_partial",
    "PySOM.BC.C35_blocks_partial",
    "PySOM.BC.C35_violated_trees",
    "PySOM.BC.C35_trees_run"
   ],
   "note": "C35_recognised: exactly which method and block bodies become trivial methods, with which literal, global, field and argument, and that the recognition never fails. C35_bytecode_partial: a trivial method gives the same answers, exceptions and states as running its bytes. Missing: setters with no argument or with three or more, setters that store self, and unknown globals in methods of class Block, all of which differ (C35_violated_setter, C35_violated_setter_n, C35_violated_unknown_global; C35_setter_stores says what is stored for every number of arguments); conditional on the inliner specification. AST interpreter: C35_recognised_trees and C35_recognised_blocks say exactly which bodies become trivial; C35_trees_partial, C35_blocks_partial and C35_trees_run: they do what executing the tree does, except `^ f := x` (C34_violated_setter) and methods with three or more arguments, which cannot be called (C35_violated_trees)."
  },
  {
   "property": "C36",
   "status": "partial",
   "theorems": [
    "PySOM.Nlr.C36_compile",
    "PySOM.Nlr.C36_ast",
    "PySOM.Nlr.C36_bc_partial",
    "PySOM.Nlr.C36_bc_no_escape_partial",
    "PySOM.Nlr.C36_violated_block_receiver",
    "PySOM.Nlr.C36_violated_block_receiver_fails",
    "PySOM.Nlr.C36_violated_not_understood"
   ],
   "note": "AST interpreter: proved in full by refinement (every run of invocations, block creations, returns and ^ agrees with a specification by home activations). Bytecode interpreter: proved unless a method with non-local returns is invoked on a receiver that is a block and its block escapes, where escapedBlock: goes to the wrong object (violated, witness). escapedBlock: not understood raises AttributeError (violated, witness). Not covered: a ^ inlined into another block in the AST interpreter after an escape."
  },
  {
   "property": "C37",
   "status": "partial",
   "theorems": [
    "PySOM.Disp.C37_ast_cache_unobservable",
    "PySOM.Disp.C37_bytecode_cache_partial",
    "PySOM.Disp.C37_violated_bytecode"
   ],
   "note": "AST interpreter: proved for every history of receivers and layout changes. Bytecode interpreter: proved except that, after the message was not understood once at the call site, a receiver with an outdated layout makes the interpreter fail (proved as a violation). The method lookup in classes is a function here; C17 shows memoisation does not change it."
  },
  {
   "property": "C38",
   "status": "partial",
   "theorems": [
    "PySOM.F64.C38_double_up_partial",
    "PySOM.F64.C38_double_to_do",
    "PySOM.F64.C38_double_down",
    "PySOM.F64.C38_double_none",
    "PySOM.F64.C38_double_infinity",
    "PySOM.Loop.C38_progression",
    "PySOM.Loop.C38_to_by_do_partial",
    "PySOM.Loop.C38_to_do_partial",
    "PySOM.Loop.C38_down_to_do_partial",
    "PySOM.Loop.C38_double_limit_partial",
    "PySOM.Loop.C38_double_limit_down_partial",
    "PySOM.Loop.C38_violated_step",
    "PySOM.Loop.C38_violated_descending",
    "PySOM.Loop.C38_violated_maxint"
   ],
   "note": "All positive steps, Integer and Double limits, up and down; violated for steps <= 0 (never ends / evaluates nothing) and on RPython for the largest machine integer as limit. With a Double as limit (CPython, C38_double_up_partial, C38_double_to_do, C38_double_down): exactly up to the largest integer not above it, down to the smallest not below it; nothing for NaN, no end for infinity."
  },
  {
   "property": "C39",
   "status": "partial",
   "theorems": [
    "PySOM.Cond.C39_bytecode_partial",
    "PySOM.Cond.C39_loop_is_primitive",
    "PySOM.Cond.C39_violated_bytecode_non_boolean",
    "PySOM.Loop.C39_primitive",
    "PySOM.Loop.C39_ast_node",
    "PySOM.Loop.C39_violated_non_boolean"
   ],
   "note": "Primitives, AST node and bytecode loop equal the textbook loop for all conditions that answer Booleans, with unboundedly many iterations. C39_violated_non_boolean (AST raises) and C39_violated_bytecode_non_boolean (bytecode loops on) for other conditions."
  },
  {
   "property": "C40",
   "status": "partial",
   "theorems": [
    "PySOM.Cond.C40_true_primitive",
    "PySOM.Cond.C40_false_primitive",
    "PySOM.Cond.C40_true_primitive_two",
    "PySOM.Cond.C40_false_primitive_two",
    "PySOM.Cond.C40_primitive_value",
    "PySOM.Cond.C40_installed",
    "PySOM.Cond.C40_bytecode_one_partial",
    "PySOM.Cond.C40_bytecode_two_partial",
    "PySOM.Cond.C40_all_inlined",
    "PySOM.Cond.C40_ast_one_partial",
    "PySOM.Cond.C40_ast_two_partial",
    "PySOM.Cond.C40_ast_specialised_partial",
    "PySOM.Cond.C40_same_messages",
    "PySOM.Cond.C40_violated_non_boolean"
   ],
   "note": "The primitives of true and false, the code the bytecode compiler inlines, and the inlined and specialised nodes of the AST interpreter all do what one small table of the library's definitions says, for all receivers and block bodies (including bodies that return non-locally or raise). Partial: for the Boolean messages the receiver must be true or false; C40_violated_non_boolean shows that otherwise the bytecode evaluates the block and the AST raises."
  },
  {
   "property": "C41",
   "status": "partial",
   "theorems": [
    "PySOM.Str.C41_concat_length",
    "PySOM.Str.C41_concat_rejects",
    "PySOM.Str.C41_charAt",
    "PySOM.Str.C41_substring",
    "PySOM.Str.C41_split_concat",
    "PySOM.Str.C41_kinds",
    "PySOM.Str.C41_violated_error_is_a_string",
    "PySOM.Str.C41_limit_empty_tail"
   ],
   "note": "All operations characterised exactly; index errors are reported by an ordinary String (witness), and the empty substring after the last character is refused. Character classes are a parameter."
  },
  {
   "property": "C42",
   "status": "proved",
   "theorems": [
    "PySOM.Str.C42_pieces_concatenate",
    "PySOM.Str.C42_readline",
    "PySOM.Str.C42_read",
    "PySOM.Str.C42_readline_progress"
   ],
   "note": "read and readline; seek is not part of the property."
  },
  {
   "property": "C43",
   "status": "partial",
   "theorems": [
    "PySOM.Str.C43_recombine_iff",
    "PySOM.Str.C43_split_recombine_partial",
    "PySOM.Str.C43_violated_split",
    "PySOM.Str.C43_split_of_combined",
    "PySOM.Str.C43_first_on_classpath"
   ],
   "note": "Class-path order proved; splitting and recombining is the identity exactly for paths outside the root directory not ending in a dot (iff)."
  },
  {
   "property": "C44",
   "status": "partial",
   "theorems": [
    "PySOM.BC.C44_well_formed",
    "PySOM.BC.C44_program_partial",
    "PySOM.BC.C44_lengths_agree"
   ],
   "note": "C44_program_partial: the bytes of every compiled method and of every block that it or its blocks create, after inlining, are whole valid instructions of the table's lengths, all bytes are at most 255 and all jumps go to boundaries inside the code. Missing only: literal arrays that contain the symbol #ArraySizeLiteralPlaceholder."
  },
  {
   "property": "C45",
   "status": "partial",
   "theorems": [
    "PySOM.Disp.C45_dnu_stack_arguments",
    "PySOM.Disp.C45_dnu_arguments_partial",
    "PySOM.Disp.C45_violated_dnu_arguments",
    "PySOM.Disp.C45_perform_partial",
    "PySOM.Disp.C45_violated_perform",
    "PySOM.Disp.C45_super_partial",
    "PySOM.Disp.C45_violated_super"
   ],
   "note": "Direct sends that are not understood pass receiver, selector and all arguments (send_n: always; otherwise unless the arguments contain nil and only Integers or only Doubles besides, which is proved to be lost). perform: and variants and super sends agree with the ordinary call when the method exists; unknown selectors and more than two arguments are proved to fail."
  },
  {
   "property": "C46",
   "status": "partial",
   "theorems": [
    "PySOM.BC.C46_literal_evaluates",
    "PySOM.BC.C46_bytecode_partial",
    "PySOM.BC.C46_ast_partial",
    "PySOM.BC.C46_violated_placeholder",
    "PySOM.BC.C46_violated_ast_shared"
   ],
   "note": "Bytecode: every evaluation ends with a new array with exactly the written elements, at any nesting depth (the meaning of the literal, C46_literal_evaluates, and the compiled bytes, C46_bytecode_partial), provided the symbol #ArraySizeLiteralPlaceholder is not an element (violation proved). AST: the content is right, but the array is made once by the parser, so it is not fresh (violation proved)."
  },
  {
   "property": "C47",
   "status": "partial",
   "theorems": [
    "PySOM.Quick.C47_sound_partial",
    "PySOM.Quick.C47_complete_partial",
    "PySOM.Quick.C47_histories_partial",
    "PySOM.Quick.C47_slots",
    "PySOM.Quick.C47_violated_half_patched"
   ],
   "note": "For whole programs with any history and interleaved activations, the interpreter that rewrites its own bytecode (variable accesses and super sends) takes exactly the steps of one that never rewrites and looks everything up each time (C47_sound_partial, C47_complete_partial, C47_histories_partial). Hypotheses: well-formed bytecode (C44), slots at most 255 and variables of outer contexts captured (C47_slots shows the frame layout gives this). Violated for a variable whose slot is above 255: the first execution raises, later ones silently use another variable (C47_violated_half_patched)."
  },
  {
   "property": "C48",
   "status": "partial",
   "theorems": [
    "PySOM.Num.C48_mixed_converts_partial",
    "PySOM.Num.C48_non_number_rejected",
    "PySOM.Num.C48_violated_big",
    "PySOM.Mach.C48_message_partial",
    "PySOM.Mach.C48_rejects_message",
    "PySOM.Mach.C48_rejects_comparison"
   ],
   "note": "Float arithmetic is a parameter. Violated for BigInteger & Double and BigInteger rem: Double. Also as messages of running programs (C48_message_partial, C48_rejects_message, C48_rejects_comparison)."
  },
  {
   "property": "C49",
   "status": "partial",
   "theorems": [
    "PySOM.Boolean.C49_booleans",
    "PySOM.Boolean.C49_truth_tables",
    "PySOM.Boolean.C49_identity",
    "PySOM.Num.C49_integer_equality_partial",
    "PySOM.Num.C49_violated_numbers",
    "PySOM.Str.C49_string_equality",
    "PySOM.Str.C49_asSymbol_asString"
   ],
   "note": "Identity is an equivalence (C49_identity); the boolean primitives are the truth functions, evaluate at most the chosen argument, and non-block arguments are answered (C49_booleans, C49_truth_tables); Integer and String equality are equivalences. With Doubles = is neither symmetric nor transitive (witnesses)."
  },
  {
   "property": "C50",
   "status": "partial",
   "theorems": [
    "PySOM.Site.C50_loop_counts",
    "PySOM.Site.C50_origin",
    "PySOM.Site.C50_transparent_partial",
    "PySOM.Site.C50_other_messages",
    "PySOM.Site.C50_violated_if",
    "PySOM.Site.C50_violated_loop",
    "PySOM.Site.C50_violated_redefined",
    "PySOM.Site.C50_increment_partial"
   ],
   "note": "Model of call sites with overlapping executions. Proved: which node executes, that it does what the send does when earlier executions had the same kinds of receiver and arguments, and for all other messages always. Violated for other kinds and for redefined messages (witnesses)."
  },
  {
   "property": "C51",
   "status": "partial",
   "theorems": [
    "PySOM.Parse.C51_expression_partial",
    "PySOM.Parse.C51_method_partial",
    "PySOM.Parse.C51_part",
    "PySOM.Parse.C51_plain_expression_partial",
    "PySOM.Parse.C51_plain_method_partial",
    "PySOM.Parse.C51_unambiguous_partial",
    "PySOM.Parse.C51_sound",
    "PySOM.Parse.C51_method_sound",
    "PySOM.Parse.C51_ast_follows_bc",
    "PySOM.Parse.C51_violated_plus_one",
    "PySOM.Parse.C51_violated_super_operand",
    "PySOM.Parse.C51_violated_super_keyword",
    "PySOM.Parse.C51_violated_missing_period",
    "PySOM.Parse.C51_violated_self_target"
   ],
   "note": "Completeness and soundness of both parsers against a grammar given as derivations: every expression and method in the part of the grammar the parser gets right is parsed to its tree (C51_expression_partial, C51_method_partial; with the excluded constructs named on tokens: C51_plain_*), trees are unique, and without super everything the parsers answer is a phrase of the grammar with that tree (C51_sound, C51_method_sound; the AST parser with optional periods). Excluded and shown wrong: unary messages after '+ 1' in the bytecode parser, super as a binary operand (both), non-trivial arguments of super keyword messages in the AST parser, missing periods accepted by the AST parser, assignments to self accepted by the bytecode parser. Class definitions are C58."
  },
  {
   "property": "C52",
   "status": "partial",
   "theorems": [
    "PySOM.Loop.C52_do_partial",
    "PySOM.Loop.C52_do_unchanged_partial",
    "PySOM.Loop.C52_doIndexes_partial",
    "PySOM.Loop.C52_violated_answer"
   ],
   "note": "Iteration proved for every representation and blocks that store into the array; the answer is Python's None (violated)."
  },
  {
   "property": "C53",
   "status": "partial",
   "theorems": [
    "PySOM.Num.C53_max_min",
    "PySOM.Num.C53_abs_partial",
    "PySOM.Num.C53_violated_abs_min",
    "PySOM.Mach.C53_abs_message_partial",
    "PySOM.Mach.C53_max_min_messages"
   ],
   "note": "abs wraps for the smallest machine integer on RPython. Also as messages of running programs, for Integers, BigIntegers and, for max: and min:, Doubles."
  },
  {
   "property": "C54",
   "status": "proved",
   "theorems": [
    "PySOM.Boot.C54_hierarchy",
    "PySOM.Boot.C54_reach"
   ],
   "note": "For every history of starting, loading, entering classes and setting globals, also with failures."
  },
  {
   "property": "C55",
   "status": "partial",
   "theorems": [
    "PySOM.Boot.C55_loaded_partial",
    "PySOM.Boot.C55_stays",
    "PySOM.Boot.C55_again",
    "PySOM.Boot.C55_ends",
    "PySOM.Boot.C55_bound",
    "PySOM.Boot.C55_violated_cycle",
    "PySOM.Boot.C55_violated_root",
    "PySOM.Boot.C55_violated_system",
    "PySOM.Boot.C55_violated_fields"
   ],
   "note": "Everything holds for classes loaded by name, and loading ends exactly with the chain of superclasses; but cycles of superclasses are not noticed, a file with superclass nil raises an exception, and for the classes that the VM makes itself the file's name and superclass are ignored and Object class lacks the fields of Class (witnesses)."
  },
  {
   "property": "C56",
   "status": "partial",
   "theorems": [
    "PySOM.Boot.C56_methods",
    "PySOM.Boot.C56_system",
    "PySOM.Boot.C56_body_partial",
    "PySOM.Boot.C56_violated"
   ],
   "note": "The table is characterised completely for loaded classes and for system classes; methods with a body are replaced by VM primitives of the same name (witness)."
  },
  {
   "property": "C57",
   "status": "partial",
   "theorems": [
    "PySOM.Inv.C57_ast_partial",
    "PySOM.Inv.C57_bc_partial",
    "PySOM.Inv.C57_bc_fails",
    "PySOM.Inv.C57_primitives",
    "PySOM.Inv.C57_primitives_ast_partial",
    "PySOM.Inv.C57_to_by_do",
    "PySOM.Inv.C57_primitives_bc_partial",
    "PySOM.Inv.C57_violated_primitives",
    "PySOM.Inv.C57_unreachable",
    "PySOM.Inv.C57_violated_reader_ast",
    "PySOM.Inv.C57_violated_setter",
    "PySOM.Inv.C57_violated_empty",
    "PySOM.Inv.C57_perform",
    "PySOM.Inv.C57_block_partial",
    "PySOM.Inv.C57_violated_block"
   ],
   "note": "Holds exactly for the invokables that fit the number of arguments (C57_ast_partial is an equivalence), which are all but two of the VM primitives and all methods with a body of their own; the rest fails (witnesses): restart, invokeOn:with:, trivial methods with three or more arguments, undefined primitives, blocks with three or more parameters."
  },
  {
   "property": "C58",
   "status": "partial",
   "theorems": [
    "PySOM.Parse.C58_class_partial",
    "PySOM.Parse.C58_plain_partial",
    "PySOM.Parse.C58_sound",
    "PySOM.Parse.C58_exact_partial",
    "PySOM.Parse.C58_ast_follows_bc_partial",
    "PySOM.Parse.C58_violated_rest",
    "PySOM.Parse.C58_violated_bar",
    "PySOM.Parse.C58_violated_empty_fields",
    "PySOM.Parse.C58_shell_partial",
    "PySOM.Parse.C58_violated_shell"
   ],
   "note": "For the bytecode parser an equivalence with the grammar (C58_exact_partial) on texts without the constructs C51 gets wrong; the AST parser follows. Violated (witnesses): text after the class is ignored; a first method | is taken for fields; || begins a method; shell lines that are not expressions can be accepted."
  },
  {
   "property": "C59",
   "status": "proved",
   "theorems": [
    "PySOM.Args.C59_classpath",
    "PySOM.Args.C59_program",
    "PySOM.Args.C59_shell",
    "PySOM.Args.C59_usage",
    "PySOM.Args.C59_all",
    "PySOM.Args.C59_directory_first",
    "PySOM.Args.C59_start",
    "PySOM.Args.C59_embedded",
    "PySOM.Args.C59_unknown_option"
   ],
   "note": "For the VM started from the command line (which exits). Every command line is one of the forms of C59_program, C59_shell and C59_usage (C59_all); C59_embedded shows what differs in an embedded VM that must not exit."
  },
  {
   "property": "C60",
   "status": "partial",
   "theorems": [
    "PySOM.Shell.C60_line_partial",
    "PySOM.Shell.C60_ascii",
    "PySOM.Shell.C60_session_partial",
    "PySOM.Shell.C60_classes",
    "PySOM.Shell.C60_names",
    "PySOM.Shell.C60_it",
    "PySOM.Shell.C60_violated_empty",
    "PySOM.Shell.C60_violated_percent",
    "PySOM.Shell.C60_violated_together",
    "PySOM.Shell.C60_violated_cut"
   ],
   "note": "Sessions are refined for lines that are not empty and are delivered one at a time without cutting characters, if the messages of syntax errors can be made; empty lines end the shell, lines delivered together are merged, a character cut by the 32 byte buffer breaks the line, and a syntax error in a line with a percent sign ends the shell (witnesses)."
  },
  {
   "property": "C61",
   "status": "partial",
   "theorems": [
    "PySOM.Clo.C61_inlining_partial",
    "PySOM.Clo.C61_no_loop_variables",
    "PySOM.Clo.C61_violated_fresh",
    "PySOM.Clo.C61_violated_shared"
   ],
   "note": "Proved where variables declared in blocks inlined into a loop are assigned before they are read and are not captured by blocks (C61_no_loop_variables: in particular where loops declare none). The full statement is false: such variables are not new in each iteration. Not modelled: the argument of escapedBlock:, which is the block around the inlined one."
  },
  {
   "property": "C62",
   "status": "partial",
   "theorems": [
    "PySOM.Elab.C62_arity",
    "PySOM.Elab.C62_source_partial",
    "PySOM.Elab.C62_stack_safe_partial",
    "PySOM.Elab.C62_well_formed_partial",
    "PySOM.Elab.C62_bindings_partial",
    "PySOM.Elab.C62_accepted",
    "PySOM.Elab.C62_inlined_names",
    "PySOM.Elab.C62_violated_self",
    "PySOM.Elab.C62_violated_undeclared"
   ],
   "note": "For every text: arity of methods and messages (C62_arity); accepted exactly if declarations do not repeat names, no parameter is called self and assignments are to declared names (C62_accepted); names of inlined variables never capture names of the text (C62_inlined_names). The bytecode of every method of a text is well-formed and stack-safe and accesses exactly the variables and fields its names mean, in order (C62_source_partial, C62_stack_safe_partial, C62_well_formed_partial, C62_bindings_partial). Missing: literal arrays with #ArraySizeLiteralPlaceholder, local variables called self. Violated: C62_violated_self, C62_violated_undeclared."
  },
  {
   "property": "C63",
   "status": "partial",
   "theorems": [
    "PySOM.Pos.C63_position_partial",
    "PySOM.Pos.C63_lookahead",
    "PySOM.Pos.C63_no_token",
    "PySOM.Pos.C63_message_partial",
    "PySOM.Pos.C63_violated_percent",
    "PySOM.Pos.C63_violated_double",
    "PySOM.Pos.C63_violated_modulo",
    "PySOM.Pos.C63_violated_lookahead",
    "PySOM.Pos.C63_violated_end"
   ],
   "note": "Positions are right after every token unless the parser has looked ahead (then they are those of the next token) and except at the end of the text; messages are right for lines without a percent sign (otherwise making the message raises another exception, or shows something else). Witnesses are proved. The scanner with its buffer is proved to refine the scanner of C24 (C24_buffered)."
  },
  {
   "property": "C64",
   "status": "partial",
   "theorems": [
    "PySOM.Elab.C64_class_partial",
    "PySOM.Elab.C64_names_partial",
    "PySOM.Elab.C64_method_partial",
    "PySOM.Elab.C64_program_partial",
    "PySOM.Elab.C64_violated_self",
    "PySOM.Elab.C64_violated_undeclared"
   ],
   "note": "Proved from text: class, names, methods, blocks, whole programs. Missing: texts with super or assignments to self (the parsers differ), variables called self (violated), literal arrays, non-boolean conditions, `^ f := x` (violated, see C34)."
  },
  {
   "property": "C65",
   "status": "partial",
   "theorems": [
    "PySOM.Disasm.C65_listing_partial",
    "PySOM.Disasm.C65_lines_partial",
    "PySOM.Disasm.C65_succeeds_partial",
    "PySOM.Disasm.C65_class_partial",
    "PySOM.Disasm.C65_violated_trivial",
    "PySOM.Disasm.C65_violated_empty",
    "PySOM.Disasm.C65_violated_ast",
    "PySOM.Disasm.C65_violated_no_context"
   ],
   "note": "Proved for every compiled method, with nested blocks; success is characterised exactly. Violated for methods and blocks that the compiler made trivial (AttributeError), classes without methods (AttributeError), blocks without context (shown as incorrect bytecode) and by the AST interpreter (shows only TODO); witnesses are proved."
  },
  {
   "property": "C66",
   "status": "partial",
   "theorems": [
    "PySOM.Mach.C66_bytecode_outcome",
    "PySOM.Mach.C66_trees_outcome",
    "PySOM.Mach.C66_trees_to_bytecode_partial",
    "PySOM.Mach.C66_bytecode_to_trees_partial",
    "PySOM.Mach.C66_both_end_partial",
    "PySOM.Mach.C66_same_partial",
    "PySOM.Mach.C66_primitives_partial"
   ],
   "note": "Proved: both interpreters have at most one outcome for every call in every state; an outcome of one that is not a NotImplementedError, AssertionError or AttributeError is the outcome of the other or that one raises such an error; calls that raise none have the same outcomes. Excluded are programs for which the interpreters really differ (C33, C34, C36) and literal arrays. What primitives compute is a parameter; classes are loaded beforehand."
  },
  {
   "property": "C67",
   "status": "partial",
   "theorems": [
    "PySOM.Mach.C67_primitives",
    "PySOM.Mach.C67_primitives_trees_partial",
    "PySOM.Mach.C67_bytecode",
    "PySOM.Mach.C67_running",
    "PySOM.Mach.C67_trees_partial"
   ],
   "note": "Bytecode interpreter: proved for all compiled programs and all histories of calls (primitives must not make blocks). AST interpreter (C67_trees_partial): for the programs of C66, leaving out states after one of the three Python errors of C66."
  },
  {
   "property": "C68",
   "status": "partial",
   "theorems": [
    "PySOM.Mach.C68_send",
    "PySOM.Mach.C68_primitive",
    "PySOM.Mach.C68_not_understood",
    "PySOM.Mach.C68_super",
    "PySOM.Mach.C68_value",
    "PySOM.Mach.C68_block",
    "PySOM.Mach.C68_global",
    "PySOM.Mach.C68_unknown_global",
    "PySOM.Mach.C68_return",
    "PySOM.Mach.C68_escaped",
    "PySOM.Mach.C68_violated_super",
    "PySOM.Mach.C68_violated_unknown_global"
   ],
   "note": "Proved for messages, super, blocks, globals and returns where a method is found. Violated where super, or a message the VM itself sends, finds no method: a Python error instead of doesNotUnderstand:arguments: (C68_violated_super, C68_violated_unknown_global)."
  },
  {
   "property": "C69",
   "status": "partial",
   "theorems": [
    "PySOM.Mach.C69_primitives_partial",
    "PySOM.BC.C69_method_partial",
    "PySOM.BC.C69_program_partial",
    "PySOM.BC.C69_code_partial",
    "PySOM.Mach.C69_trees_partial",
    "PySOM.Mach.C69_bytecode_partial",
    "PySOM.Mach.C69_value_partial",
    "PySOM.Elab.C69_text_partial",
    "PySOM.Elab.C69_text_value_partial"
   ],
   "note": "Trees: equality with the interpreter of the source, at every depth of calls. Bytecode: the same up to conditions that are not booleans; on the machine up to the three Python errors of C66. Missing: literal arrays, and programs in which the interpreters differ (Compiled2.Ok, as in C34)."
  },
  {
   "property": "C70",
   "status": "proved",
   "theorems": [
    "PySOM.Mach.C70_primitives",
    "PySOM.Mach.C70_installed",
    "PySOM.Mach.C70_collected",
    "PySOM.Mach.C70_bytecode",
    "PySOM.Mach.C70_trees",
    "PySOM.Mach.C70_noted"
   ],
   "note": "For both interpreters, all compiled programs, all reachable states. The AST compiler resolves super when it makes the node; the machine reads the class from the frame; that both are the same is what is proved. The errors raised if super finds nothing differ between the interpreters (C45)."
  },
  {
   "property": "C71",
   "status": "partial",
   "theorems": [
    "PySOM.Mach.C71_performIn_partial",
    "PySOM.Mach.C71_violated_perform_in",
    "PySOM.Mach.C71_value",
    "PySOM.Mach.C71_booleans",
    "PySOM.Mach.C71_while",
    "PySOM.Mach.C71_to_by_do_partial",
    "PySOM.Mach.C71_to_do_partial",
    "PySOM.Mach.C71_down_to_do_partial",
    "PySOM.Mach.C71_doIndexes_partial",
    "PySOM.Mach.C71_do_partial",
    "PySOM.Mach.C71_perform_partial",
    "PySOM.Mach.C71_performWith_partial",
    "PySOM.Mach.C71_not_block",
    "PySOM.Mach.C71_arithmetic",
    "PySOM.Mach.C71_comparison",
    "PySOM.Mach.C71_at_partial",
    "PySOM.Mach.C71_at_put"
   ],
   "note": "Proved for arbitrary behaviour of blocks and methods: value, messages to booleans, whileTrue:/whileFalse:, exact arithmetic and comparison of integers, at:put:; C66, C67, C69 and C70 with the actual primitives (C66_primitives_partial, C67_primitives, C69_primitives_partial, C70_primitives). Partial: counting loops for positive steps and counters that stay machine integers (C38), perform: of messages that are understood with at most two arguments (C45), at: from 1 (C14), the answers of do: and doIndexes: are None in the VM (C52)."
  },
  {
   "property": "C72",
   "status": "partial",
   "theorems": [
    "PySOM.Boot.C72_class",
    "PySOM.Boot.C72_loaded",
    "PySOM.Boot.C72_values",
    "PySOM.Boot.C72_lookup",
    "PySOM.Boot.C72_send",
    "PySOM.Boot.C72_primitive",
    "PySOM.Boot.C72_not_understood",
    "PySOM.Boot.C72_super",
    "PySOM.Boot.C72_numbers",
    "PySOM.Boot.C72_interpreters_partial",
    "PySOM.Boot.C72_violated"
   ],
   "note": "C72_class, C72_loaded, C72_values, C72_lookup, C72_send, C72_primitive, C72_not_understood, C72_super: for every system that was started and went on. Partial: globals that the program has set are excluded for the class and its superclasses; no file may name True, False or a class of blocks as its superclass (C72_violated); declared primitives that the VM does not have are not described while running; C72_interpreters_partial inherits the conditions of C66."
  },
  {
   "property": "C73",
   "status": "partial",
   "theorems": [
    "PySOM.Boot.C73_fields",
    "PySOM.Boot.C73_inherited",
    "PySOM.Boot.C73_method",
    "PySOM.Boot.C73_class",
    "PySOM.Boot.C73_source",
    "PySOM.Boot.C73_value_partial",
    "PySOM.Boot.C73_interpreters_partial",
    "PySOM.Boot.C73_violated"
   ],
   "note": "Proved: which text and which method in it a message runs, with both interpreters' compilations of it in a class with the fields that the texts say; fields of superclasses come first and keep their numbers; running gives the value of evaluating that text's method. Assumed: what C64 and C69 leave out (literal arrays, setters, texts that assign to self), and that the files of the VM's own classes declare no fields (NoFields); with fields in Class the property is violated (C73_violated)."
  },
  {
   "property": "C74",
   "status": "partial",
   "theorems": [
    "PySOM.Boot.C74_room_partial",
    "PySOM.Boot.C74_own",
    "PySOM.Boot.C74_record_partial",
    "PySOM.Boot.C74_violated"
   ],
   "note": "C74_room_partial and C74_record_partial: every class that the VM has not made itself has one slot per field of its class side, and these behave as a record (up to 32 fields); C74_own and C74_violated: the eleven classes of the VM never have slots, so class-side fields declared in their files cannot be read or stored."
  },
  {
   "property": "C75",
   "status": "partial",
   "theorems": [
    "PySOM.F64.C75_round_partial",
    "PySOM.F64.C75_violated",
    "PySOM.F64.C75_not_finite",
    "PySOM.F64.C75_floor",
    "PySOM.F64.C75_truncate",
    "PySOM.F64.C75_convert",
    "PySOM.F64.C75_nearest",
    "PySOM.F64.C75_too_large",
    "PySOM.F64.C75_back",
    "PySOM.F64.C75_back_small",
    "PySOM.F64.C75_closed",
    "PySOM.F64.C75_arithmetic",
    "PySOM.F64.C75_one",
    "PySOM.Mach.C75_sum_message",
    "PySOM.Mach.C75_product_message",
    "PySOM.Mach.C75_difference_message",
    "PySOM.Mach.C75_quotient_message",
    "PySOM.Mach.C75_remainder_message",
    "PySOM.Mach.C75_round_message_partial",
    "PySOM.Mach.C75_asInteger_message",
    "PySOM.Mach.C75_asDouble_message",
    "PySOM.Mach.C75_message_rejects",
    "PySOM.Mach.C75_asDouble_rejects",
    "PySOM.Mach.C75_infinity_message"
   ],
   "note": "C75_round_partial says exactly when round is right: for all finite Doubles but +-0.49999999999999994, where it answers +-1 (C75_violated). The other parts (asInteger, asDouble, there and back, arithmetic, errors) are proved for all values. CPython; Python's float operations are trusted as IEEE 754 says. Arithmetic of Doubles also as messages of running programs (Props/PrimDoubles.lean)."
  },
  {
   "property": "C76",
   "status": "partial",
   "theorems": [
    "PySOM.F64.C76_compare_partial",
    "PySOM.F64.C76_order",
    "PySOM.F64.C76_less_partial",
    "PySOM.F64.C76_equal",
    "PySOM.F64.C76_nan",
    "PySOM.F64.C76_violated",
    "PySOM.Mach.C76_message_partial",
    "PySOM.Mach.C76_max_min_message_partial"
   ],
   "note": "C76_compare_partial: all six comparisons for Integers up to 2^53 and all Doubles but NaN; C76_less_partial: for all Integers, a yes of < or > is right; C76_equal: Integer = Double is exact for all Integers; C76_nan. C76_violated: 2^53+1 and the Double 2^53 are neither less, equal nor greater, and = is not symmetric. CPython. Also as messages of running programs (C76_message_partial, C76_max_min_message_partial)."
  },
  {
   "property": "C77",
   "status": "partial",
   "theorems": [
    "PySOM.F64.C77_root_partial",
    "PySOM.F64.C77_double",
    "PySOM.F64.C77_other_doubles",
    "PySOM.F64.C77_negative",
    "PySOM.F64.C77_violated",
    "PySOM.Mach.C77_root_message_partial",
    "PySOM.Mach.C77_no_root_message_partial",
    "PySOM.Mach.C77_negative_message",
    "PySOM.Mach.C77_large_message",
    "PySOM.Mach.C77_double_message"
   ],
   "note": "C77_root_partial: for Integers up to 2^52, an Integer is answered exactly for squares; C77_double: the nearest Double. C77_violated: 2^52+1 has the Integer root 2^26. CPython."
  },
  {
   "property": "C78",
   "status": "partial",
   "theorems": [
    "PySOM.Nodes.C78_program",
    "PySOM.Nodes.C78_replacement",
    "PySOM.Nodes.C78_no_error",
    "PySOM.Nodes.C78_once_partial",
    "PySOM.Nodes.C78_in_place_partial",
    "PySOM.Nodes.C78_violated"
   ],
   "note": "C78_program, C78_replacement and C78_no_error hold for all runs. C78_once_partial and C78_in_place_partial: specialised at most once and in place, for runs without recursion. C78_violated: after two nested calls a node is specialised again in every call for ever (it costs time, the results are right)."
  },
  {
   "property": "C79",
   "status": "proved",
   "theorems": [
    "PySOM.Mach.C79_bytecode",
    "PySOM.Mach.C79_trees",
    "PySOM.Mach.C79_class",
    "PySOM.Mach.C79_numbers",
    "PySOM.Mach.C79_strings",
    "PySOM.Mach.C79_arrays",
    "PySOM.Mach.C79_blocks",
    "PySOM.Mach.C79_output"
   ],
   "note": "For all programs whose bytecode the compiler made, resp. all trees, in any state; C79_class, C79_numbers, C79_strings, C79_arrays, C79_blocks and C79_output spell it out."
  },
  {
   "property": "C80",
   "status": "partial",
   "theorems": [
    "PySOM.Mach.C80_concatenate",
    "PySOM.Mach.C80_concatenate_rejects",
    "PySOM.Mach.C80_length",
    "PySOM.Mach.C80_equal",
    "PySOM.Mach.C80_asSymbol",
    "PySOM.Mach.C80_asString",
    "PySOM.Mach.C80_charAt_partial",
    "PySOM.Mach.C80_substring_partial",
    "PySOM.Mach.C80_new",
    "PySOM.Mach.C80_identical",
    "PySOM.Mach.C80_class",
    "PySOM.Mach.C80_instVarAt_partial",
    "PySOM.Mach.C80_instVarAt_put",
    "PySOM.Mach.C80_array_new",
    "PySOM.Mach.C80_array_length",
    "PySOM.Mach.C80_array_copy",
    "PySOM.Mach.C80_copy_apart",
    "PySOM.Mach.C80_array_putAll_partial",
    "PySOM.Mach.C80_global_put",
    "PySOM.Mach.C80_global",
    "PySOM.Mach.C80_hasGlobal",
    "PySOM.Mach.C80_global_stored",
    "PySOM.Mach.C80_print",
    "PySOM.Mach.C80_newline",
    "PySOM.Mach.C80_print_rejects",
    "PySOM.Mach.C80_putAll_block_partial",
    "PySOM.Mach.C80_violated_putAll",
    "PySOM.Mach.C80_name",
    "PySOM.Mach.C80_instVarNamed_partial",
    "PySOM.Mach.C80_violated_instVarNamed",
    "PySOM.Mach.C80_kind",
    "PySOM.Mach.C80_symbol_equal",
    "PySOM.Mach.C80_hash",
    "PySOM.Mach.C80_names",
    "PySOM.Mach.C80_to_partial",
    "PySOM.Mach.C80_violated_to",
    "PySOM.Mach.C80_to_rejects",
    "PySOM.Mach.C80_asString_fromString",
    "PySOM.Mach.C80_fromString_large",
    "PySOM.Mach.C80_fromString_nil",
    "PySOM.Mach.C80_superclass",
    "PySOM.Mach.C80_no_superclass"
   ],
   "note": "Indices within strings, fields and arrays: outside of them the code answers strings with a message (C41) or counts from the end (C14, C52). putAll: with something that is not a block (with blocks: C11). `to:` on RPython up to the largest machine integer is C80_violated_to. `putAll:` with a block whose answers are of different kinds loses one of them (C80_violated_putAll; Booleans and Doubles among others are left out), and `instVarNamed:` with an unknown name answers the last field (C80_violated_instVarNamed)."
  },
  {
   "property": "C81",
   "status": "partial",
   "theorems": [
    "PySOM.Elab.C81_bytecode_partial",
    "PySOM.Elab.C81_trees_partial",
    "PySOM.Elab.C81_text_partial",
    "PySOM.Boot.C81_message_partial",
    "PySOM.Mach.C81_literals"
   ],
   "note": "All texts without a local variable called `self` (C62_violated_self: there `^ self` and `^ (self)` differ). C81_message_partial is about the programs of C73."
  },
  {
   "property": "C82",
   "status": "proved",
   "theorems": [
    "PySOM.Main.C82_same",
    "PySOM.Main.C82_usage",
    "PySOM.Main.C82_program",
    "PySOM.Main.C82_shell",
    "PySOM.Main.C82_not_started",
    "PySOM.Main.C82_class_path",
    "PySOM.Main.C82_missing",
    "PySOM.Main.C82_object"
   ],
   "note": "How the method `initialize:` and the statements of the shell end is a parameter of the model. The status is the number handed to the operating system, which keeps its lowest eight bits."
  },
  {
   "property": "C83",
   "status": "partial",
   "theorems": [
    "PySOM.FileRead.C83_contents",
    "PySOM.FileRead.C83_missing",
    "PySOM.FileRead.C83_unreadable",
    "PySOM.FileRead.C83_failing_partial",
    "PySOM.FileRead.C83_violated_truncated",
    "PySOM.FileRead.C83_violated_decode"
   ],
   "note": "For files whose reads fail C83_failing_partial says only that a beginning of the contents, nil or an exception comes: a failure after the first part gives this part as if it were all (C83_violated_truncated), and bytes that are no text end the program (C83_violated_decode)."
  },
  {
   "property": "C84",
   "status": "proved",
   "theorems": [
    "PySOM.Boot.C84_runs",
    "PySOM.Boot.C84_own",
    "PySOM.Boot.C84_no_class",
    "PySOM.Boot.C84_errors"
   ],
   "note": "For the first call of execute_method in a process, and for names whose global is a class or nothing."
  },
  {
   "property": "C85",
   "status": "partial",
   "theorems": [
    "PySOM.Output.C85_encoding",
    "PySOM.Output.C85_different",
    "PySOM.Output.C85_arrives_partial",
    "PySOM.Output.C85_read_partial",
    "PySOM.Output.C85_write_partial",
    "PySOM.Output.C85_fails",
    "PySOM.Output.C85_violated_short"
   ],
   "note": "Complete only if the system takes all bytes of each write (C85_arrives_partial, C85_read_partial); when it takes fewer, the rest is lost without an error (C85_violated_short), C85_write_partial says what arrives then. Texts with lone surrogates are left out."
  },
  {
   "property": "C86",
   "status": "partial",
   "theorems": [
    "PySOM.Clock.C86_value",
    "PySOM.Clock.C86_start",
    "PySOM.Clock.C86_forward_partial",
    "PySOM.Clock.C86_exact",
    "PySOM.Clock.C86_violated_set_back"
   ],
   "note": "Not less than before only if the clock of the system does not go back (C86_forward_partial); `time.time()` is not monotonic (C86_violated_set_back)."
  },
  {
   "property": "C87",
   "status": "partial",
   "theorems": [
    "PySOM.Reflect.C87_step_partial",
    "PySOM.Reflect.C87_run_partial",
    "PySOM.Reflect.C87_answers",
    "PySOM.Reflect.C87_index",
    "PySOM.Reflect.C87_violated_fields"
   ],
   "note": "Histories without stores into the arrays that `fields` answers (C87_step_partial, C87_run_partial); such a store changes the class (C87_violated_fields). The table of methods is without the inherited entries of C18."
  },
  {
   "property": "C88",
   "status": "partial",
   "theorems": [
    "PySOM.Hash.C88_equal_partial",
    "PySOM.Hash.C88_texts",
    "PySOM.Hash.C88_identity",
    "PySOM.Hash.C88_identical",
    "PySOM.Hash.C88_identical_partial",
    "PySOM.Hash.C88_violated_identical",
    "PySOM.Hash.C88_violated_numbers"
   ],
   "note": "Receivers that are no numbers (C88_equal_partial), or no Integers for `==` (C88_identical_partial); numbers get hash codes by address (C88_violated_numbers, C88_violated_identical), unless a class file defines `hashcode` itself."
  }
 ]
}