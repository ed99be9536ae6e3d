{
 "claims": [
  {
   "property": "C01",
   "status": "partial",
   "theorems": [
    "TinyGarble.Props.C01_strings_partial",
    "TinyGarble.Props.C01_protocol_equals_plaintext_partial",
    "TinyGarble.Props.C01_outputs_represent"
   ],
   "note": "Whole protocol, both memory modes, all schedules, multi-cycle: each output bit read from its owner equals the plaintext evaluator's. Excluded, because the code violates the claim there: outputs lost by the evaluator (C10), secret terminate (C13), oblivious transfer with tiny buffers (C14)."
  },
  {
   "property": "C02",
   "status": "proved",
   "theorems": [
    "TinyGarble.Props.C02_table_gate_decodes"
   ],
   "note": ""
  },
  {
   "property": "C03",
   "status": "proved",
   "theorems": [
    "TinyGarble.Props.C03_free_gates_need_no_table",
    "TinyGarble.Props.C03_free_gates_correct"
   ],
   "note": ""
  },
  {
   "property": "C04",
   "status": "proved",
   "theorems": [
    "TinyGarble.Props.C04_labels_differ_by_offset"
   ],
   "note": ""
  },
  {
   "property": "C05",
   "status": "proved",
   "theorems": [
    "TinyGarble.Props.C05_public_values_sound",
    "TinyGarble.Props.C05_related_inputs",
    "TinyGarble.Props.C05_known_value_sound"
   ],
   "note": ""
  },
  {
   "property": "C06",
   "status": "proved",
   "theorems": [
    "TinyGarble.Props.C06_same_classification"
   ],
   "note": ""
  },
  {
   "property": "C07",
   "status": "proved",
   "theorems": [
    "TinyGarble.Props.C07_sent_eq_consumed",
    "TinyGarble.Props.C07_garbler_within_buffer",
    "TinyGarble.Props.C07_evaluator_within_buffer",
    "TinyGarble.Props.C07_table_matches_gate"
   ],
   "note": ""
  },
  {
   "property": "C08",
   "status": "proved",
   "theorems": [
    "TinyGarble.Props.C08_skipped_gates_unused"
   ],
   "note": ""
  },
  {
   "property": "C09",
   "status": "proved",
   "theorems": [
    "TinyGarble.Props.C09_flipflops_represent"
   ],
   "note": ""
  },
  {
   "property": "C10",
   "status": "partial",
   "theorems": [
    "TinyGarble.Props.C10_garbler_bits",
    "TinyGarble.Props.C10_evaluator_bits_partial",
    "TinyGarble.Props.C10_both_bits_partial",
    "TinyGarble.Props.C10_evaluator_loses_output"
   ],
   "note": "Exact result for both parties in every mode. The evaluator loses public 1 outputs below the mask's top bit: negation proved with a witness."
  },
  {
   "property": "C100",
   "status": "partial",
   "theorems": [
    "TinyGarble.Props.C100_numeral",
    "TinyGarble.Props.C100_value_partial",
    "TinyGarble.Props.C100_false_prefix",
    "TinyGarble.Props.C100_false_rest",
    "TinyGarble.Props.C100_false_plaintext"
   ],
   "note": "Numerals are read as their value, and C100_value_partial says which number every other string stands for. The full claim is false: no string is refused; with the prefix 0x all inputs and masks are 0, and what follows a numeral is ignored."
  },
  {
   "property": "C101",
   "status": "partial",
   "theorems": [
    "TinyGarble.Props.C101_read_iff_partial",
    "TinyGarble.Props.C101_no_junk",
    "TinyGarble.Props.C101_refused",
    "TinyGarble.Props.C101_missing",
    "TinyGarble.Props.C101_false_superfluous",
    "TinyGarble.Props.C101_false_arity"
   ],
   "note": "C101_read_iff_partial says exactly which files are read and as what; all others are refused (C101_refused), in particular those with missing gates (C101_missing). False of the code: what follows the announced gates is ignored, and the number of inputs need not be that of the kind; an AND gate with one input is compiled with wire -1 as its second input."
  },
  {
   "property": "C102",
   "status": "partial",
   "theorems": [
    "TinyGarble.Props.C102_cores_partial",
    "TinyGarble.Props.C102_function_partial",
    "TinyGarble.Props.C102_loop_partial",
    "TinyGarble.Props.C102_no_gate",
    "TinyGarble.Props.C102_false_cycle",
    "TinyGarble.Props.C102_false_loop",
    "TinyGarble.Props.C102_false_terminate"
   ],
   "note": "Proved for netlists with a gate, without a cycle and (for the function) without a terminate signal. The full claim is false: without gates an array of no element is read; with a cycle Schedule never ends; a loop is reported also when nothing reads the output of some gate; the number of the terminate signal is not adapted to the new order."
  },
  {
   "property": "C103",
   "status": "partial",
   "theorems": [
    "TinyGarble.Props.C103_double",
    "TinyGarble.Props.C103_left_partial",
    "TinyGarble.Props.C103_false_left",
    "TinyGarble.Props.C103_false_right"
   ],
   "note": "The doubling is proved. LeftShift is right exactly if bit 63 is 0; RightShift shifts to the left and is right for the block of zeros only."
  },
  {
   "property": "C104",
   "status": "partial",
   "theorems": [
    "TinyGarble.Props.C104_shared_iff",
    "TinyGarble.Props.C104_runs_partial",
    "TinyGarble.Props.C104_false",
    "TinyGarble.Props.C104_false_far"
   ],
   "note": "C104_shared_iff says exactly which blocks two executions share: none in the first 2^31 draws if the seeds differ (C104_runs_partial, with offset and key). The full claim is false: executions that begin in the same second have the same seed and use the same labels; seeds that differ by 2^31 give the same sequence, shifted by 2^31."
  },
  {
   "property": "C11",
   "status": "proved",
   "theorems": [
    "TinyGarble.Props.C11_garbler_sends",
    "TinyGarble.Props.C11_evaluator_sends",
    "TinyGarble.Props.C11_garbler_sends_high",
    "TinyGarble.Props.C11_evaluator_sends_high"
   ],
   "note": "Covers the output loop of one cycle (both modes) and the loop over all cycles of the high-memory mode."
  },
  {
   "property": "C12",
   "status": "partial",
   "theorems": [
    "TinyGarble.Props.C12_same_strings_partial",
    "TinyGarble.Props.C12_strings_differ",
    "TinyGarble.Props.C12_modes_agree"
   ],
   "note": "Output strings of both modes are equal for the garbler always, for the evaluator unless a lost public output meets last_clock mode; there they differ (witness proved)."
  },
  {
   "property": "C13",
   "status": "partial",
   "theorems": [
    "TinyGarble.Props.C13_stop_cycle_partial",
    "TinyGarble.Props.C13_secret_terminate_deadlocks",
    "TinyGarble.Props.C13_terminate_represents"
   ],
   "note": "Public terminate signals: same cycle for both parties and the plaintext evaluator. Secret terminate signals always deadlock (proved in general): the code violates the claim."
  },
  {
   "property": "C14",
   "status": "partial",
   "theorems": [
    "TinyGarble.Props.C14_protocol_finishes_partial",
    "TinyGarble.Props.C14_ot_can_deadlock"
   ],
   "note": "All schedules of the whole protocol finish with the same results given 16896 bytes of buffer (any buffer without OT). With tiny buffers the base transfer can deadlock (proved): the unconditional claim is false."
  },
  {
   "property": "C15",
   "status": "proved",
   "theorems": [
    "TinyGarble.Props.C15_send",
    "TinyGarble.Props.C15_send_reads",
    "TinyGarble.Props.C15_recv",
    "TinyGarble.Props.C15_transfer",
    "TinyGarble.Props.C15_fails_at_first_error",
    "TinyGarble.Props.C15_succeeds"
   ],
   "note": "Every sequence of return values of write/read."
  },
  {
   "property": "C16",
   "status": "partial",
   "theorems": [
    "TinyGarble.Props.C16_large_transfers_dropped",
    "TinyGarble.Props.C16_tables_sent_partial"
   ],
   "note": "False of the code from 44739243 tables on (length truncated to int): negation proved; proved below 2^31 bytes."
  },
  {
   "property": "C17",
   "status": "partial",
   "theorems": [
    "TinyGarble.Props.C17_sign_lost",
    "TinyGarble.Props.C17_bn_transmission_partial"
   ],
   "note": "False for negative numbers (sign not sent): negation proved; proved for all non-negative numbers and all schedules."
  },
  {
   "property": "C18",
   "status": "proved",
   "theorems": [
    "TinyGarble.Props.C18_block_bn"
   ],
   "note": ""
  },
  {
   "property": "C19",
   "status": "proved",
   "theorems": [
    "TinyGarble.Props.C19_xor",
    "TinyGarble.Props.C19_xor_in_place",
    "TinyGarble.Props.C19_invert",
    "TinyGarble.Props.C19_full_one"
   ],
   "note": ""
  },
  {
   "property": "C20",
   "status": "proved",
   "theorems": [
    "TinyGarble.Props.C20_ot_delivers"
   ],
   "note": "All schedules, buffers of at least mLen*132 bytes."
  },
  {
   "property": "C21",
   "status": "partial",
   "theorems": [
    "TinyGarble.Props.C21_selection_not_hidden",
    "TinyGarble.Props.C21_uniform_secret_partial",
    "TinyGarble.Props.C21_bias_bounded_partial"
   ],
   "note": "False of the code: the secret is a 1024-bit number reduced modulo the 1024-bit modulus, so values differ in likelihood by a factor 2 (proved for every key); proved for a secret uniform below the modulus."
  },
  {
   "property": "C22",
   "status": "proved",
   "theorems": [
    "TinyGarble.Props.C22_ext_delivers"
   ],
   "note": ""
  },
  {
   "property": "C23",
   "status": "proved",
   "theorems": [
    "TinyGarble.Props.C23_transpose",
    "TinyGarble.Props.C23_transpose_pair",
    "TinyGarble.Props.C23_transpose_twice"
   ],
   "note": ""
  },
  {
   "property": "C24",
   "status": "partial",
   "theorems": [
    "TinyGarble.Props.C24_hash_inputs_collide",
    "TinyGarble.Props.C24_collisions_partial",
    "TinyGarble.Props.C24_same_length_partial"
   ],
   "note": "False of the code (padding at the wrong end): negation proved; exact characterisation of collisions proved."
  },
  {
   "property": "C25",
   "status": "proved",
   "theorems": [
    "TinyGarble.Props.C25_selections_hidden"
   ],
   "note": "Concerns the chosen messages of the base transfers; see C44 for the others."
  },
  {
   "property": "C26",
   "status": "partial",
   "theorems": [
    "TinyGarble.Props.C26_evaluator_learns_offset",
    "TinyGarble.Props.C26_evaluator_learns_inputs",
    "TinyGarble.Props.C26_evaluator_learns_init_low",
    "TinyGarble.Props.C26_opening_hides_partial"
   ],
   "note": "False of the code: the global key sent in clear is the whole state of the label generator; offset, private initial values and (high-memory mode) all private inputs are computed from the opening message, for every seed, circuit, cipher. With independent uniform draws the opening message would hide them (proved)."
  },
  {
   "property": "C27",
   "status": "partial",
   "theorems": [
    "TinyGarble.Props.C27_roundtrip_partial",
    "TinyGarble.Props.C27_large_index"
   ],
   "note": "Proved on the characters of the file for all circuits whose numbers fit the types. Beyond 2^31 gates the int index overflows (proved)."
  },
  {
   "property": "C28",
   "status": "proved",
   "theorems": [
    "TinyGarble.Props.C28_succeeds_iff_acyclic",
    "TinyGarble.Props.C28_order"
   ],
   "note": "For netlists whose operands exist (which IdAssignment checks)."
  },
  {
   "property": "C29",
   "status": "partial",
   "theorems": [
    "TinyGarble.Props.C29_function_partial",
    "TinyGarble.Props.C29_meaning",
    "TinyGarble.Props.C29_cyclic_rejected",
    "TinyGarble.Props.C29_constant_output",
    "TinyGarble.Props.C29_wire_zero_lost"
   ],
   "note": "Proved for all well-formed netlists with at least one wire that is not a gate. False of the code without inputs and flip-flops (wire 0 is not renumbered: witness proved); constant outputs make the code read outside of an array (proved)."
  },
  {
   "property": "C30",
   "status": "proved",
   "theorems": [
    "TinyGarble.Props.C30_parsed",
    "TinyGarble.Props.C30_mux",
    "TinyGarble.Props.C30_half_adder",
    "TinyGarble.Props.C30_full_adder",
    "TinyGarble.Props.C30_full_adder_one",
    "TinyGarble.Props.C30_collision",
    "TinyGarble.Props.C30_unknown_cell",
    "TinyGarble.Props.C30_unconnected"
   ],
   "note": "The expansions for all values and subsets of outputs, and the whole parser: a module of library cells is parsed to a netlist with the same valuations, provided that no net has a name that the parser makes up (C30_collision shows why). C30_unknown_cell and C30_unconnected: what happens to modules that are not proper."
  },
  {
   "property": "C31",
   "status": "proved",
   "theorems": [
    "TinyGarble.Props.C31_layout",
    "TinyGarble.Props.C31_numbering"
   ],
   "note": "C31_layout: the eight index ranges. C31_numbering: IdAssignment (checks compiled in) gives every net one number, in the order of the layout, for all netlists where no net has two drivers."
  },
  {
   "property": "C32",
   "status": "proved",
   "theorems": [
    "TinyGarble.Props.C32_wire_names",
    "TinyGarble.Props.C32_parsed"
   ],
   "note": ""
  },
  {
   "property": "C33",
   "status": "proved",
   "theorems": [
    "TinyGarble.Props.C33_plain_wires",
    "TinyGarble.Props.C33_plain_outputs"
   ],
   "note": ""
  },
  {
   "property": "C34",
   "status": "proved",
   "theorems": [
    "TinyGarble.Props.C34_consecutive",
    "TinyGarble.Props.C34_separated",
    "TinyGarble.Props.C34_last_high",
    "TinyGarble.Props.C34_last_low"
   ],
   "note": ""
  },
  {
   "property": "C35",
   "status": "partial",
   "theorems": [
    "TinyGarble.Props.C35_signed_partial",
    "TinyGarble.Props.C35_min_undefined",
    "TinyGarble.Props.C35_unsigned",
    "TinyGarble.Props.C35_hex2bin",
    "TinyGarble.Props.C35_bin2hex",
    "TinyGarble.Props.C35_long_lost"
   ],
   "note": "False of the code for the smallest 64-bit number (undefined behaviour) and for hexadecimal strings of 2^16 digits or more; proved for everything else."
  },
  {
   "property": "C36",
   "status": "proved",
   "theorems": [
    "TinyGarble.Props.C36_parse",
    "TinyGarble.Props.C36_roundtrip"
   ],
   "note": ""
  },
  {
   "property": "C37",
   "status": "partial",
   "theorems": [
    "TinyGarble.Props.C37_input_fields",
    "TinyGarble.Props.C37_output_fields_partial",
    "TinyGarble.Props.C37_roundtrip",
    "TinyGarble.Props.C37_outputs_lost",
    "TinyGarble.Props.C37_mask"
   ],
   "note": "False of the code from 256 outputs on (8-bit count): negation proved; proved below, for widths up to 64 and less than 2^16 - 4 bits in total."
  },
  {
   "property": "C38",
   "status": "proved",
   "theorems": [
    "TinyGarble.Props.C38_tweaks_distinct"
   ],
   "note": ""
  },
  {
   "property": "C39",
   "status": "proved",
   "theorems": [
    "TinyGarble.Props.C39_counts_exact",
    "TinyGarble.Props.C39_success_iff",
    "TinyGarble.Props.C39_reduce_never_grows"
   ],
   "note": ""
  },
  {
   "property": "C40",
   "status": "partial",
   "theorems": [
    "TinyGarble.Props.C40_success_without_evaluation",
    "TinyGarble.Props.C40_evaluates_partial"
   ],
   "note": "False of the code: SUCCESS is returned although the auxiliary files could not be opened and nothing was evaluated. Proved when they can be opened."
  },
  {
   "property": "C41",
   "status": "proved",
   "theorems": [
    "TinyGarble.Props.C41_step_bijective",
    "TinyGarble.Props.C41_low_bit_alternates",
    "TinyGarble.Props.C41_period"
   ],
   "note": ""
  },
  {
   "property": "C42",
   "status": "partial",
   "theorems": [
    "TinyGarble.Props.C42_quicksort_partial",
    "TinyGarble.Props.C42_quicksort_range",
    "TinyGarble.Props.C42_topsort_partial",
    "TinyGarble.Props.C42_empty_reads_outside"
   ],
   "note": "For an empty array the code reads arr[0] of an array without elements (proved); proved for all non-empty arrays and all parts of them. TopSort: permutation that respects dependencies."
  },
  {
   "property": "C43",
   "status": "partial",
   "theorems": [
    "TinyGarble.Props.C43_cmpBlock_partial",
    "TinyGarble.Props.C43_cmpBlock_not_exact"
   ],
   "note": "False of the code (only the low 64 bits are compared): negation proved with a witness; proved what the comparison decides."
  },
  {
   "property": "C44",
   "status": "partial",
   "theorems": [
    "TinyGarble.Props.C44_upper_selections_leak",
    "TinyGarble.Props.C44_selections_distinguished",
    "TinyGarble.Props.C44_masking_partial"
   ],
   "note": "False of the code for more than 1024 messages: the sender learns the selections from index 1024 on (proved); additive masking of short messages shown to hide up to few values."
  },
  {
   "property": "C45",
   "status": "partial",
   "theorems": [
    "TinyGarble.Props.C45_accepted_iff_partial",
    "TinyGarble.Props.C45_long_rejected_partial",
    "TinyGarble.Props.C45_garbage_accepted",
    "TinyGarble.Props.C45_false_short",
    "TinyGarble.Props.C45_false_prefix",
    "TinyGarble.Props.C45_false_prefix_long"
   ],
   "note": "False of the code; C45_accepted_iff_partial says exactly which strings are accepted. Every string of at most 15 characters is accepted (C45_false_short). All numbers of up to 13 digits after 0x are read as 0, and of 16 to 29 digits after 0x only the last 16 are read."
  },
  {
   "property": "C46",
   "status": "proved",
   "theorems": [
    "TinyGarble.Props.C46_fresh_low",
    "TinyGarble.Props.C46_fresh_high"
   ],
   "note": ""
  },
  {
   "property": "C47",
   "status": "partial",
   "theorems": [
    "TinyGarble.Props.C47_read",
    "TinyGarble.Props.C47_complete_iff_partial",
    "TinyGarble.Props.C47_false_early_end",
    "TinyGarble.Props.C47_empty_file_accepted",
    "TinyGarble.Props.C47_false_word"
   ],
   "note": "False of the code for every file that ends early: missing numbers are what was in memory (C47_read), so the circuit depends on memory (C47_false_early_end), and nothing is reported. Complete files give the circuit of their numbers (C47_complete_iff_partial). The theorems are for files of decimal numerals that fit, in any layout; a word that begins otherwise is read as 0 and ends the file (C47_false_word), again without report."
  },
  {
   "property": "C48",
   "status": "proved",
   "theorems": [
    "TinyGarble.Props.C48_compiled_circuit"
   ],
   "note": "For netlists of less than 2^31 wires."
  },
  {
   "property": "C49",
   "status": "partial",
   "theorems": [
    "TinyGarble.Props.C49_compiled_partial",
    "TinyGarble.Props.C49_meaning_partial",
    "TinyGarble.Props.C49_undriven_rejected",
    "TinyGarble.Props.C49_undriven_accepted",
    "TinyGarble.Props.C49_assignment_order",
    "TinyGarble.Props.C49_log"
   ],
   "note": "For netlists that compile, with the checks compiled in (ENABLE_LOG). Netlists accepted with the checks are numbered in the same way without them (C49_log), but without them an output that nothing drives is silently connected to wire 0 (C49_undriven_accepted). Assignments have to be listed in order (C49_assignment_order)."
  },
  {
   "property": "C50",
   "status": "proved",
   "theorems": [
    "TinyGarble.Props.C50_bristol",
    "TinyGarble.Props.C50_overlap"
   ],
   "note": "For proper circuits of less than 2^31 wires, with the checks compiled in. C50_overlap: what happens outside of proper circuits."
  },
  {
   "property": "C51",
   "status": "proved",
   "theorems": [
    "TinyGarble.Props.C51_verilog",
    "TinyGarble.Props.C51_meaning",
    "TinyGarble.Props.C51_no_endmodule"
   ],
   "note": "For proper modules without the made-up names, less than 2^31 nets, checks compiled in (ENABLE_LOG; see C49_log). That a file is produced is a hypothesis: assignments have to be in order (C49_assignment_order) and the module free of cycles. C51_no_endmodule: a file without endmodule is read for ever."
  },
  {
   "property": "C52",
   "status": "proved",
   "theorems": [
    "TinyGarble.Props.C52_same_view",
    "TinyGarble.Props.C52_no_test_distinguishes"
   ],
   "note": "The cipher under the session key is an arbitrary function that is drawn together with the labels (ideal cipher), and the statement is conditioned on good randomness; C55 bounds how often randomness is bad. Semi-honest evaluator; the oblivious transfer delivers exactly the chosen labels (C20, C22). The generator is treated as perfect (compare C41, C46)."
  },
  {
   "property": "C53",
   "status": "proved",
   "theorems": [
    "TinyGarble.Props.C53_encrypt",
    "TinyGarble.Props.C53_encrypt_one",
    "TinyGarble.Props.C53_decrypt",
    "TinyGarble.Props.C53_decrypt_one",
    "TinyGarble.Props.C53_permutation"
   ],
   "note": "The SSE and AES instructions are modelled after Intel's definitions; the specification is FIPS-197 with the S-box as inversion and affine map. Rounds of the key at least 1 (10, 12 or 14 for the three key lengths)."
  },
  {
   "property": "C54",
   "status": "partial",
   "theorems": [
    "TinyGarble.Props.C54_verilog_partial",
    "TinyGarble.Props.C54_bristol_partial"
   ],
   "note": "Composition of C01, C51, C50, C27, C34. Excluded, because the code violates the claim there: outputs lost by the evaluator (C10), secret terminate (C13), oblivious transfer with tiny buffers (C14); labels must not agree by accident (C56: how rare that is)."
  },
  {
   "property": "C55",
   "status": "proved",
   "theorems": [
    "TinyGarble.Props.C55_bad_choices_rare",
    "TinyGarble.Props.C55_advantage"
   ],
   "note": "Counting over all random choices (offset with last bit 1, labels, cipher as an arbitrary function). Less than 2^64 cycles, because the tweak has 64 bits for the cycle. The seeded generator of the program does not reach all choices (C41); the theorems are about random choices that are really uniform."
  },
  {
   "property": "C56",
   "status": "partial",
   "theorems": [
    "TinyGarble.Props.C56_accidents_rare",
    "TinyGarble.Props.C56_choices_possible",
    "TinyGarble.Props.C56_correct_without_accident_partial",
    "TinyGarble.Props.C56_rarely_wrong_partial",
    "TinyGarble.Props.C56_rarely_wrong_superfluous_partial"
   ],
   "note": "Missing: the executions excluded in C01 (C10, C13, C14), where the code gives wrong results."
  },
  {
   "property": "C57",
   "status": "partial",
   "theorems": [
    "TinyGarble.Props.C57_bubble_sort",
    "TinyGarble.Props.C57_merge_sort_partial",
    "TinyGarble.Props.C57_merge_sort_wrong"
   ],
   "note": "bubble-sort.c: proved for every size. merge-sort.c does not sort (the recursive calls overwrite the global variable m; witness for the size 32 of the code proved); proved that it ends, stays inside of its arrays and permutes."
  },
  {
   "property": "C58",
   "status": "partial",
   "theorems": [
    "TinyGarble.Props.C58_sum_arm",
    "TinyGarble.Props.C58_sum_portable_partial",
    "TinyGarble.Props.C58_sum_portable_undefined",
    "TinyGarble.Props.C58_compare_arm",
    "TinyGarble.Props.C58_compare_portable_partial",
    "TinyGarble.Props.C58_compare_portable_wrong",
    "TinyGarble.Props.C58_temp_partial",
    "TinyGarble.Props.C58_temp_out_of_bounds"
   ],
   "note": "Proved for the ARM instructions. The portable code overflows (sum) or compares words as signed numbers (compare), and temp.c writes outside of its output array: negations proved, and the claim for the remaining inputs."
  },
  {
   "property": "C59",
   "status": "partial",
   "theorems": [
    "TinyGarble.Props.C59_hamming_partial",
    "TinyGarble.Props.C59_hamming_mod",
    "TinyGarble.Props.C59_hamming_eight_words"
   ],
   "note": "Proved for the size 1 of the code, and modulo 256 for all powers of two. From 8 words on the byte that holds the count overflows (witness proved)."
  },
  {
   "property": "C60",
   "status": "partial",
   "theorems": [
    "TinyGarble.Props.C60_dijkstra_partial",
    "TinyGarble.Props.C60_overflow"
   ],
   "note": "Proved for all weights up to 2^31 - 1 - 32767; larger weights overflow (witness proved)."
  },
  {
   "property": "C61",
   "status": "partial",
   "theorems": [
    "TinyGarble.Props.C61_matrix_partial",
    "TinyGarble.Props.C61_matrix_undefined",
    "TinyGarble.Props.C61_small_entries",
    "TinyGarble.Props.C61_mul_partial",
    "TinyGarble.Props.C61_mul_undefined"
   ],
   "note": "Proved exactly for the inputs whose products and partial sums are representable; otherwise the behaviour is undefined (proved)."
  },
  {
   "property": "C62",
   "status": "partial",
   "theorems": [
    "TinyGarble.Props.C62_aes_partial",
    "TinyGarble.Props.C62_aes_undefined",
    "TinyGarble.Props.C62_sbox_partial",
    "TinyGarble.Props.C62_sbox_undefined"
   ],
   "note": "False of the code: getSBoxValue uses t[8] and z[2] of arrays with 8 and 2 elements, for every input. Proved for arrays with one more element, and for the table that is compiled if COMPUTESBOX is 0."
  },
  {
   "property": "C63",
   "status": "proved",
   "theorems": [
    "TinyGarble.Props.C63_sha3",
    "TinyGarble.Props.C63_sha3_sizes",
    "TinyGarble.Props.C63_block_undefined",
    "TinyGarble.Props.C63_garbler_ignored"
   ],
   "note": "Little-endian processor, as on the ARM core. The specification is FIPS-202 with the round constants from the shift register and the offsets from the walk."
  },
  {
   "property": "C64",
   "status": "partial",
   "theorems": [
    "TinyGarble.Props.C64_garbler_safe",
    "TinyGarble.Props.C64_evaluator_partial",
    "TinyGarble.Props.C64_evaluator_overflow",
    "TinyGarble.Props.C64_table_index"
   ],
   "note": "The garbler is safe. The full claim is false for the evaluator: the announced number of tables is not compared with the buffer (C64_evaluator_overflow, for every circuit); C64_evaluator_partial: this is the only way. A negative length in RecvBN ends the program (uncaught exception), which is modelled as a failure."
  },
  {
   "property": "C65",
   "status": "proved",
   "theorems": [
    "TinyGarble.Props.C65_mapping",
    "TinyGarble.Props.C65_verilog"
   ],
   "note": ""
  },
  {
   "property": "C66",
   "status": "proved",
   "theorems": [
    "TinyGarble.Props.C66_defined",
    "TinyGarble.Props.C66_cordic",
    "TinyGarble.Props.C66_half_pi",
    "TinyGarble.Props.C66_outside"
   ],
   "note": "Against the real functions sin and cos of Mathlib. `>>` of a negative int is the arithmetic shift."
  },
  {
   "property": "C67",
   "status": "partial",
   "theorems": [
    "TinyGarble.Props.C67_lines_partial",
    "TinyGarble.Props.C67_numeral_partial",
    "TinyGarble.Props.C67_icompare_partial",
    "TinyGarble.Props.C67_crlf"
   ],
   "note": "Proved for files whose lines are hexadecimal numerals of equal width. The claim is false for files with carriage returns (C67_crlf): then only the last line is read."
  },
  {
   "property": "C68",
   "status": "proved",
   "theorems": [
    "TinyGarble.Props.C68_words",
    "TinyGarble.Props.C68_files"
   ],
   "note": "For any gc_main; little-endian machine."
  },
  {
   "property": "C69",
   "status": "partial",
   "theorems": [
    "TinyGarble.Props.Hdl.C69_add",
    "TinyGarble.Props.Hdl.C69_sub",
    "TinyGarble.Props.Hdl.C69_comp",
    "TinyGarble.Props.Hdl.C69_mux",
    "TinyGarble.Props.Hdl.C69_twos",
    "TinyGarble.Props.Hdl.C69_add_signed",
    "TinyGarble.Props.Hdl.C69_sub_signed",
    "TinyGarble.Props.Hdl.C69_mult",
    "TinyGarble.Props.Hdl.C69_mult_signed",
    "TinyGarble.Props.Hdl.C69_div",
    "TinyGarble.Props.Hdl.C69_div_zero",
    "TinyGarble.Props.Hdl.C69_div_signed",
    "TinyGarble.Props.Hdl.C69_sqrt",
    "TinyGarble.Props.Hdl.C69_count",
    "TinyGarble.Props.Hdl.C69_shifts_reversed",
    "TinyGarble.Props.Hdl.C69_shift_left_wrong"
   ],
   "note": "False only for the shifts, which are exchanged (C69_shifts_reversed, C69_shift_left_wrong)."
  },
  {
   "property": "C70",
   "status": "proved",
   "theorems": [
    "TinyGarble.Props.Hdl.C70_sum",
    "TinyGarble.Props.Hdl.C70_sum_one",
    "TinyGarble.Props.Hdl.C70_compare",
    "TinyGarble.Props.Hdl.C70_compare_one",
    "TinyGarble.Props.Hdl.C70_hamming",
    "TinyGarble.Props.Hdl.C70_hamming_one"
   ],
   "note": ""
  },
  {
   "property": "C71",
   "status": "partial",
   "theorems": [
    "TinyGarble.Props.Hdl.C71_mult_partial",
    "TinyGarble.Props.Hdl.C71_mult_truncates",
    "TinyGarble.Props.Hdl.C71_matrix0",
    "TinyGarble.Props.Hdl.C71_matrix1",
    "TinyGarble.Props.Hdl.C71_matrix2",
    "TinyGarble.Props.Hdl.C71_matrix3",
    "TinyGarble.Props.Hdl.C71_non_secret",
    "TinyGarble.Props.Hdl.C71_argmax",
    "TinyGarble.Props.Hdl.C71_encoder"
   ],
   "note": "mult.v computes the product for one cycle only; with more cycles it ignores the upper bits of the evaluator's number (C71_mult_truncates)."
  },
  {
   "property": "C72",
   "status": "proved",
   "theorems": [
    "TinyGarble.Props.Hdl.C72_aes_1cc",
    "TinyGarble.Props.Hdl.C72_aes_11cc",
    "TinyGarble.Props.Hdl.C72_state_determines"
   ],
   "note": "For all keys and messages. The 11-cycle circuit's eleventh output; the FIPS-197 vector is an example."
  },
  {
   "property": "C73",
   "status": "partial",
   "theorems": [
    "TinyGarble.Props.Hdl.C73_comb_partial",
    "TinyGarble.Props.Hdl.C73_comb_rounds",
    "TinyGarble.Props.Hdl.C73_seq_late",
    "TinyGarble.Props.Hdl.C73_seq_fails",
    "TinyGarble.Props.Hdl.C73_input_lanes"
   ],
   "note": "True of sha3_comb with CC=1. False of sha3_seq: its round constants are one cycle late, so the first cycle adds none; what it computes instead is proved, and that it is not Keccak-p for a concrete input."
  },
  {
   "property": "C74",
   "status": "partial",
   "theorems": [
    "TinyGarble.Props.Hdl.C74_k_nearest_partial",
    "TinyGarble.Props.Hdl.C74_k_nearest_td_partial",
    "TinyGarble.Props.Hdl.C74_first_is_farthest",
    "TinyGarble.Props.Hdl.C74_first_td_is_farthest",
    "TinyGarble.Props.Hdl.C74_first_fails",
    "TinyGarble.Props.Hdl.C74_first_seq_zero",
    "TinyGarble.Props.Hdl.C74_first_seq_td_zero"
   ],
   "note": "True of k_nns_seq and k_nns_seq_td (for the latter of `min_val_out`; its output `o` has no driver). False of first_nns_comb and first_nns_comb_td, which output the first of the farthest points, and of first_nns_seq and first_nns_seq_td, which output 0."
  },
  {
   "property": "C75",
   "status": "partial",
   "theorems": [
    "TinyGarble.Props.Hdl.C75_step",
    "TinyGarble.Props.Hdl.C75_modmult_fails",
    "TinyGarble.Props.Hdl.C75_modexp_fails"
   ],
   "note": "False of the code: the multiplexers of modmult and modexp_2N_NN have their inputs exchanged. What one step computes instead is proved for all operands; that the results are wrong by concrete operands."
  },
  {
   "property": "C76",
   "status": "proved",
   "theorems": [
    "TinyGarble.Props.Hdl.C76_stack_machine",
    "TinyGarble.Props.Hdl.C76_no_xor"
   ],
   "note": "For programs that respect the depth; C76_no_xor: the branch for xor is unreachable."
  },
  {
   "property": "C77",
   "status": "proved",
   "theorems": [
    "TinyGarble.Props.Hdl.C77_memory",
    "TinyGarble.Props.Hdl.C77_public"
   ],
   "note": "Reading outside of the array is excluded (undefined in Verilog)."
  },
  {
   "property": "C78",
   "status": "partial",
   "theorems": [
    "TinyGarble.Props.Hdl.C78_stable_partial",
    "TinyGarble.Props.Hdl.C78_complete_partial",
    "TinyGarble.Props.Hdl.C78_never_finishes",
    "TinyGarble.Props.Hdl.C78_ignores_preferences",
    "TinyGarble.Props.Hdl.C78_hangs"
   ],
   "note": "The matching of stable_match_seq is stable and the best for the suitors from cycle 2 S Ks on, but `finish` is never set (C78_never_finishes). The claim is false of stable_match: it ignores the women's preferences (C78_ignores_preferences) and waits for ever if the first man's first choice is woman 0 (C78_hangs)."
  },
  {
   "property": "C79",
   "status": "partial",
   "theorems": [
    "TinyGarble.Props.Hdl.C79_memory_partial",
    "TinyGarble.Props.Hdl.C79_branches_partial",
    "TinyGarble.Props.Hdl.C79_step_partial",
    "TinyGarble.Props.Hdl.C79_branch",
    "TinyGarble.Props.Hdl.C79_unaligned",
    "TinyGarble.Props.Hdl.C79_sltiu",
    "TinyGarble.Props.Hdl.C79_load_byte",
    "TinyGarble.Props.Hdl.C79_load_half",
    "TinyGarble.Props.Hdl.C79_jump",
    "TinyGarble.Props.Hdl.C79_overflow",
    "TinyGarble.Props.Hdl.C79_hi_lo",
    "TinyGarble.Props.Hdl.C79_outside"
   ],
   "note": "Proved for all programs that execute instructions in the cases listed by Spec.Mips.Supported. C79_branches_partial has the taken branches too: the circuit is the machine of the manual for the program with all branch offsets smaller by one. Missing because the circuit does something else there: taken branches with the offsets of the manual (C79_branch), lwl and lwr (C79_unaligned), sltiu with a negative immediate, signed loads of the upper bytes and halves, jumps in the last word of a region, overflows, multiplication and division."
  },
  {
   "property": "C80",
   "status": "partial",
   "theorems": [
    "TinyGarble.Props.Hdl.C80_arm_partial",
    "TinyGarble.Props.Hdl.C80_circuit_partial",
    "TinyGarble.Props.Hdl.C80_false_shift_by_register",
    "TinyGarble.Props.Hdl.C80_false_shift_by_32",
    "TinyGarble.Props.Hdl.C80_false_rrx",
    "TinyGarble.Props.Hdl.C80_false_adcs",
    "TinyGarble.Props.Hdl.C80_false_ands",
    "TinyGarble.Props.Hdl.C80_false_conditional_jump",
    "TinyGarble.Props.Hdl.C80_false_mla",
    "TinyGarble.Props.Hdl.C80_false_two_multiplications",
    "TinyGarble.Props.Hdl.C80_false_self_modification",
    "TinyGarble.Props.Hdl.C80_false_empty_list"
   ],
   "note": "Proved for all programs that execute instructions in the cases listed by Spec.Arm.Supported. Missing because the circuit does something else there, with one theorem each: shifts by 32 and more, rrx, flags of adcs/sbcs/rscs, carry of ands/tst, instructions that write to the program counter if their condition does not hold, mla, two multiplications in sequence, a store to the next instruction, lists of no registers."
  },
  {
   "property": "C81",
   "status": "partial",
   "theorems": [
    "TinyGarble.Props.Hdl.C81_exact_partial",
    "TinyGarble.Props.Hdl.C81_halt_partial",
    "TinyGarble.Props.Hdl.C81_circuit_partial",
    "TinyGarble.Props.Hdl.C81_circuit_halt_partial",
    "TinyGarble.Props.Hdl.C81_false_premature"
   ],
   "note": "terminate is set for the first time exactly in the last cycle before the instruction at 0x14, with the result in the output, if no instruction before is at 0x14 to 0x1c, the one at 0x10 is a branch, and no multiple transfer accesses the word at 0x18 and then that at 0x1c. After the program has arrived at the branch to itself the output stays and terminate is set in every third cycle. False of the code without these restrictions: terminate is also set by a multiple load of the words at 0x18 and 0x1c."
  },
  {
   "property": "C82",
   "status": "proved",
   "theorems": [
    "TinyGarble.Props.Hdl.C82_add",
    "TinyGarble.Props.Hdl.C82_sub",
    "TinyGarble.Props.Hdl.C82_neg",
    "TinyGarble.Props.Hdl.C82_mul",
    "TinyGarble.Props.Hdl.C82_lt",
    "TinyGarble.Props.Hdl.C82_le",
    "TinyGarble.Props.Hdl.C82_gt",
    "TinyGarble.Props.Hdl.C82_ge",
    "TinyGarble.Props.Hdl.C82_eq",
    "TinyGarble.Props.Hdl.C82_ne",
    "TinyGarble.Props.Hdl.C82_shl",
    "TinyGarble.Props.Hdl.C82_shr",
    "TinyGarble.Props.Hdl.C82_sshr",
    "TinyGarble.Props.Hdl.C82_div",
    "TinyGarble.Props.Hdl.C82_pmux",
    "TinyGarble.Props.Hdl.C82_safe_pmux"
   ],
   "note": "Comparisons and divisions for operands that are both signed or both unsigned, as yosys makes them; shifted vectors of at most 2^30 bits; no division by zero."
  },
  {
   "property": "C83",
   "status": "partial",
   "theorems": [
    "TinyGarble.Props.C83_verilog",
    "TinyGarble.Props.C83_lib",
    "TinyGarble.Props.C83_extended",
    "TinyGarble.Props.C83_dff",
    "TinyGarble.Props.C83_lib_dff",
    "TinyGarble.Props.C83_extended_dff_false",
    "TinyGarble.Props.C83_yosys_pin_false"
   ],
   "note": "Proved for dff_full.v and dff_full.lib and for the cells without state of asic_cell_yosys_extended.lib. False of the code: the flip-flop of asic_cell_yosys_extended.lib and the name of the outputs in asic_cell_yosys.lib."
  },
  {
   "property": "C84",
   "status": "partial",
   "theorems": [
    "TinyGarble.Props.Hdl.C84_terminate",
    "TinyGarble.Props.Hdl.C84_rotation_partial",
    "TinyGarble.Props.Hdl.C84_rotation16_partial",
    "TinyGarble.Props.Hdl.C84_sine_cosine_partial",
    "TinyGarble.Props.Hdl.C84_sine_cosine16_partial",
    "TinyGarble.Props.Hdl.C84_linear_partial",
    "TinyGarble.Props.Hdl.C84_false_rotation",
    "TinyGarble.Props.Hdl.C84_false_vectoring",
    "TinyGarble.Props.Hdl.C84_false_linear32",
    "TinyGarble.Props.Hdl.C84_false_linear_negative",
    "TinyGarble.Props.Hdl.C84_false_hyperbolic"
   ],
   "note": "The number of steps is proved for all parameters; the circular functions, with 32 and with 16 bits, as long as no coordinate gets negative, in particular the sine and the cosine of angles from 0.13 (0.15) to 1.44 (1.42); the linear functions with 16 bits and positive x. False of the code: negative coordinates (the shifts are logical), DIR_VEC, MOD_LIN with 32 bits, MOD_HYP."
  },
  {
   "property": "C85",
   "status": "partial",
   "theorems": [
    "TinyGarble.Props.C85_image_partial",
    "TinyGarble.Props.C85_start_partial",
    "TinyGarble.Props.C85_not_allocated",
    "TinyGarble.Props.C85_uninitialised",
    "TinyGarble.Props.C85_outside"
   ],
   "note": "Proved for executables in which exactly the sections of type PROGBITS and NOBITS occupy memory and none reaches beyond twice the length of the file. False of the code: sections that occupy no memory (comments) overwrite the program, the word after the program is uninitialised memory of the tool, and a large array without contents is written outside of the buffer."
  },
  {
   "property": "C86",
   "status": "partial",
   "theorems": [
    "TinyGarble.Props.C86_evaluator_low_partial",
    "TinyGarble.Props.C86_garbler_low_partial",
    "TinyGarble.Props.C86_evaluator_labels_partial",
    "TinyGarble.Props.C86_evaluator_false",
    "TinyGarble.Props.C86_garbler_high_partial",
    "TinyGarble.Props.C86_garbler_false"
   ],
   "note": "Proved for both parties in low-memory mode, for the evaluator in high-memory mode as far as the labels, and for the garbler in high-memory mode when an output of the first cycle is secret and the values of the terminate signal are public. False of the code: in high-memory mode the evaluator ignores a loss during the transfer of the tables and reports an output made from uninitialised memory, and the garbler ignores that the evaluator does not answer to a secret terminate signal."
  },
  {
   "property": "C87",
   "status": "partial",
   "theorems": [
    "TinyGarble.Props.Hdl.C87_sum",
    "TinyGarble.Props.Hdl.C87_compare",
    "TinyGarble.Props.Hdl.C87_temp",
    "TinyGarble.Props.Hdl.C87_mul",
    "TinyGarble.Props.Hdl.C87_sbox",
    "TinyGarble.Props.Hdl.C87_aes",
    "TinyGarble.Props.Hdl.C87_aes_determined",
    "TinyGarble.Props.Hdl.C87_sha3",
    "TinyGarble.Props.Hdl.C87_mem_test",
    "TinyGarble.Props.Hdl.C87_hamming",
    "TinyGarble.Props.Hdl.C87_bubble_sort",
    "TinyGarble.Props.Hdl.C87_cordic",
    "TinyGarble.Props.Hdl.C87_cordic_sine_cosine",
    "TinyGarble.Props.Hdl.C87_dijkstra",
    "TinyGarble.Props.Hdl.C87_merge_sort_unsorted_halves",
    "TinyGarble.Props.Hdl.C87_merge_sort_partial",
    "TinyGarble.Props.Hdl.C87_false_merge_sort",
    "TinyGarble.Props.Hdl.C87_matrix_mul_last_product",
    "TinyGarble.Props.Hdl.C87_false_matrix_mul",
    "TinyGarble.Props.Hdl.C87_false_dijkstra",
    "TinyGarble.Props.Hdl.C87_false_thousand_cycles",
    "TinyGarble.Props.Hdl.C87_false_code_memory"
   ],
   "note": "Proved on the circuit, for all inputs and sizes, with the exact cycle of terminate, for sum, compare, mul, sbox, aes (the cipher of FIPS-197), sha3 (SHA3-256 of FIPS-202), temp, mem-test, hamming, bubble-sort, cordic and dijkstra (weights whose sums fit). For merge-sort, whose conditional return the circuit always takes, the result is proved to be the merging of the unsorted halves, which is not ascending in general. False for matrix-mul, whose mla instructions the circuit executes without the addition, for dijkstra when sums overflow, and for the 1000 cycles and the 64 words of code of the README."
  },
  {
   "property": "C88",
   "status": "partial",
   "theorems": [
    "TinyGarble.Props.C88_check_partial",
    "TinyGarble.Props.C88_check_undefined",
    "TinyGarble.Props.C88_false"
   ],
   "note": "Proved for the check itself when the two strings of Alice are empty. False of the code: with other strings (the default mask is one) the check reads behind its buffer, and the programs do not call it: with different masks both end with SUCCESS and wrong lines."
  },
  {
   "property": "C89",
   "status": "partial",
   "theorems": [
    "TinyGarble.Props.C89_convert",
    "TinyGarble.Props.C89_convert_bristol",
    "TinyGarble.Props.C89_bristol_partial",
    "TinyGarble.Props.C89_bristol_evaluator_partial",
    "TinyGarble.Props.C89_programs_partial",
    "TinyGarble.Props.C89_evaluator_partial",
    "TinyGarble.Props.C89_unknown_mode",
    "TinyGarble.Props.C89_refuses_bristol",
    "TinyGarble.Props.C89_refuses_verilog_partial",
    "TinyGarble.Props.C89_unknown_mode",
    "TinyGarble.Props.C89_evaluator_exit_status",
    "TinyGarble.Props.C89_write_protected",
    "TinyGarble.Props.C89_false_damaged"
   ],
   "note": "Proved for all three programs on Verilog modules and Bristol netlists, under the conditions of C01 for TinyGarble. False of the code: SCD_Evaluator_Main exits with SUCCESS and an empty line if the circuit file is missing, and circuit files without write permission are treated as missing; circuit files that end early are used with what was in memory (C89_false_damaged)."
  },
  {
   "property": "C90",
   "status": "partial",
   "theorems": [
    "TinyGarble.Props.C90_written",
    "TinyGarble.Props.C90_table_partial",
    "TinyGarble.Props.C90_verilog_partial",
    "TinyGarble.Props.C90_false_last_cycle",
    "TinyGarble.Props.C90_false_cells"
   ],
   "note": "The exact contents are proved for all compiled netlists; they are the table if the execution does not terminate early and no cell drives a net called terminate. False of the code: there is no line for the cycle in which the circuit terminates, and the cells after the driver of the terminate signal are left out."
  },
  {
   "property": "C91",
   "status": "partial",
   "theorems": [
    "TinyGarble.Props.C91_transfer_partial",
    "TinyGarble.Props.C91_long_refused",
    "TinyGarble.Props.C91_refused_iff_partial",
    "TinyGarble.Props.C91_select",
    "TinyGarble.Props.C91_not_refused",
    "TinyGarble.Props.C91_false_prefix"
   ],
   "note": "Proved for messages and selections of the described form, and that messages of more than 128 bits are refused. False of the code otherwise: any selection other than 1 counts as 0, and malformed messages are cut off (C91_not_refused) or sent as 0 (C91_false_prefix). C91_refused_iff_partial and C91_select say exactly which messages are refused and which selections are 1."
  },
  {
   "property": "C92",
   "status": "partial",
   "theorems": [
    "TinyGarble.Props.Hdl.C92_manual",
    "TinyGarble.Props.Hdl.C92_circuit_partial",
    "TinyGarble.Props.Hdl.C92_false_manual",
    "TinyGarble.Props.Hdl.C92_false_delay_slots"
   ],
   "note": "The program is right on the machine of the manual, for all inputs and at all times. On the circuit it is right if the offsets of its branches count from the branch itself; with the offsets of the manual, it never stores an answer (for all inputs and at all times), and with delay slots it counts words that do not differ."
  },
  {
   "property": "C93",
   "status": "partial",
   "theorems": [
    "TinyGarble.Props.C93_protocol_partial",
    "TinyGarble.Props.C93_low_partial",
    "TinyGarble.Props.C93_garbler_partial",
    "TinyGarble.Props.C93_garbler_high_partial",
    "TinyGarble.Props.C93_false",
    "TinyGarble.Props.C93_false_garbler",
    "TinyGarble.Props.C93_false_example"
   ],
   "note": "Both builds return the same when nothing fails: in proper executions of the two parties in both memory modes, and, for the garbler in both modes and the evaluator in low-memory mode, whatever bytes arrive. The full claim is false: without ENABLE_LOG, CHECK ignores failures, so a lost connection is not reported, for all circuits and inputs without oblivious transfer."
  },
  {
   "property": "C94",
   "status": "partial",
   "theorems": [
    "TinyGarble.Props.C94_server_partial",
    "TinyGarble.Props.C94_client_partial",
    "TinyGarble.Props.C94_false_server",
    "TinyGarble.Props.C94_false_client",
    "TinyGarble.Props.C94_false_port",
    "TinyGarble.Props.C94_false_two"
   ],
   "note": "Proved for ports between 0 and 65535 and functions that succeed, whichever system calls fail. The full claim is false: sockets stay open after FAILURE, ports are taken modulo 65536, listenfd is global."
  },
  {
   "property": "C95",
   "status": "partial",
   "theorems": [
    "TinyGarble.Props.Hdl.C95_absent_partial",
    "TinyGarble.Props.Hdl.C95_one_partial",
    "TinyGarble.Props.Hdl.C95_apart",
    "TinyGarble.Props.Hdl.C95_false_swap",
    "TinyGarble.Props.Hdl.C95_false_swi"
   ],
   "note": "Refinement of the machine in which these instructions do nothing. Missing: programs that execute other instructions in the cases that Circuit.Supported excludes. C95_false_swap and C95_false_swi show that this is not what the ARM manual says."
  },
  {
   "property": "C96",
   "status": "partial",
   "theorems": [
    "TinyGarble.Props.C96_plain",
    "TinyGarble.Props.C96_plain_partial",
    "TinyGarble.Props.C96_taken_exists",
    "TinyGarble.Props.C96_protocol_partial",
    "TinyGarble.Props.C96_loop_partial",
    "TinyGarble.Props.C96_false_output",
    "TinyGarble.Props.C96_false_result",
    "TinyGarble.Props.C96_false_garbler",
    "TinyGarble.Props.C96_false_loop"
   ],
   "note": "True for at most 2^31 bits of each input and of output and less than 2^32 cycles: then the conversions to int have no effect. The full claim is false: positions are taken modulo 2^32, output bits from 2^31 on are lost, the garbler and the plaintext evaluator disagree from 2^32 on, loops with a uint counter do not end."
  },
  {
   "property": "C97",
   "status": "partial",
   "theorems": [
    "TinyGarble.Props.C97_tables",
    "TinyGarble.Props.C97_inputs",
    "TinyGarble.Props.C97_flipflops",
    "TinyGarble.Props.C97_outputs_partial",
    "TinyGarble.Props.C97_keys",
    "TinyGarble.Props.C97_false_outputs",
    "TinyGarble.Props.C97_names_partial",
    "TinyGarble.Props.C97_false_names"
   ],
   "note": "Tables, inputs, flip-flops and keys are proved for both modes; outputs for high-memory mode: in low-memory mode GarbleLowMem never writes to the output file (C97_false_outputs, for every circuit). Names differ after LogInitial, as the test programs use it, but main's own option dump_directory stores the bare directory in the same variable, so Alice and Bob write to the same files (C97_false_names)."
  },
  {
   "property": "C98",
   "status": "partial",
   "theorems": [
    "TinyGarble.Props.C98_run",
    "TinyGarble.Props.C98_passed",
    "TinyGarble.Props.C98_netlist_passed",
    "TinyGarble.Props.C98_netlist_passes_partial",
    "TinyGarble.Props.C98_a23_passes",
    "TinyGarble.Props.C98_false_missing_files",
    "TinyGarble.Props.C98_false_a23_missing",
    "TinyGarble.Props.C98_ot_passed",
    "TinyGarble.Props.C98_ot_passes",
    "TinyGarble.Props.C98_ext_passed",
    "TinyGarble.Props.C98_ext_passes",
    "TinyGarble.Props.C98_echo_passed",
    "TinyGarble.Props.C98_echo_passes",
    "TinyGarble.Props.C98_report",
    "TinyGarble.Props.C98_false_exit"
   ],
   "note": "What a passed test means is proved in full. That a correct program passes is proved for the tests of OT, OT extension and connection, and for netlists without lost outputs (C10) in the output modes that the tests use. False: with a missing .map or .csv file the tests compare with \"0\" (C98_false_missing_files), the test of the processor does not notice that a file with the program or an input is missing (C98_false_a23_missing), and the five minunit programs exit with 0 whatever fails (C98_false_exit)."
  },
  {
   "property": "C99",
   "status": "partial",
   "theorems": [
    "TinyGarble.Props.C99_refused",
    "TinyGarble.Props.C99_accepted_iff_partial",
    "TinyGarble.Props.C99_endmodule",
    "TinyGarble.Props.C99_no_endmodule",
    "TinyGarble.Props.C99_false_unknown_cell"
   ],
   "note": "Proved for modules of the cells of the library, whatever the layout: read exactly if there is no error. The full claim is false: a cell that is not in the library is dropped without a message. Without ENABLE_LOG only the declarations are checked."
  }
 ]
}