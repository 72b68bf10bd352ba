{
 "claims": [
  {
   "property": "C01",
   "status": "proved",
   "theorems": [
    "Parm.C01_encrypt_decrypt",
    "Parm.C01_roundtrip",
    "Parm.C01_min_release",
    "Parm.C01_min_debug_panics"
   ],
   "note": "The most negative i64 (excluded by the property) is covered separately: truncation in release, panic in debug."
  },
  {
   "property": "C02",
   "status": "proved",
   "theorems": [
    "Parm.C02_vec_roundtrip",
    "Parm.C02_vec_reject"
   ],
   "note": ""
  },
  {
   "property": "C03",
   "status": "proved",
   "theorems": [
    "Parm.C03_decrypt_total"
   ],
   "note": ""
  },
  {
   "property": "C04",
   "status": "proved",
   "theorems": [
    "Parm.C04_add"
   ],
   "note": ""
  },
  {
   "property": "C05",
   "status": "proved",
   "theorems": [
    "Parm.C05_sub"
   ],
   "note": ""
  },
  {
   "property": "C06",
   "status": "proved",
   "theorems": [
    "Parm.C06_add_noisy",
    "Parm.C06_sub_noisy",
    "Parm.C06_trait",
    "Parm.C06_trait_cost"
   ],
   "note": ""
  },
  {
   "property": "C07",
   "status": "proved",
   "theorems": [
    "Parm.C07_closure",
    "Parm.C44_program"
   ],
   "note": ""
  },
  {
   "property": "C08",
   "status": "proved",
   "theorems": [
    "Parm.C08_left_zero",
    "Parm.C08_right_zero",
    "Parm.C08_length",
    "Parm.C08_length_le"
   ],
   "note": ""
  },
  {
   "property": "C09",
   "status": "proved",
   "theorems": [
    "Parm.C09_add_cost"
   ],
   "note": ""
  },
  {
   "property": "C10",
   "status": "proved",
   "theorems": [
    "Parm.C10_opp"
   ],
   "note": ""
  },
  {
   "property": "C11",
   "status": "proved",
   "theorems": [
    "Parm.C11_shift"
   ],
   "note": ""
  },
  {
   "property": "C12",
   "status": "proved",
   "theorems": [
    "Parm.C12_add_const",
    "Parm.C12_add_const_min_debug",
    "Parm.C12_add_const_min_release"
   ],
   "note": ""
  },
  {
   "property": "C13",
   "status": "proved",
   "theorems": [
    "Parm.C13_scalar_mul",
    "Parm.C13_scalar_mul_debug",
    "Parm.C13_small"
   ],
   "note": ""
  },
  {
   "property": "C14",
   "status": "proved",
   "theorems": [
    "Parm.C14_sgn"
   ],
   "note": ""
  },
  {
   "property": "C15",
   "status": "proved",
   "theorems": [
    "Parm.C15_max"
   ],
   "note": ""
  },
  {
   "property": "C16",
   "status": "proved",
   "theorems": [
    "Parm.C16_relu"
   ],
   "note": ""
  },
  {
   "property": "C17",
   "status": "proved",
   "theorems": [
    "Parm.C17_mul"
   ],
   "note": ""
  },
  {
   "property": "C18",
   "status": "proved",
   "theorems": [
    "Parm.C18_squ"
   ],
   "note": ""
  },
  {
   "property": "C19",
   "status": "proved",
   "theorems": [
    "Parm.C19_round_at",
    "Parm.C19_round_at_value"
   ],
   "note": ""
  },
  {
   "property": "C20",
   "status": "proved",
   "theorems": [
    "Parm.C20_mul_too_long",
    "Parm.C20_squ_too_long",
    "Parm.C20_mul_fails_iff",
    "Parm.C20_squ_fails_iff"
   ],
   "note": ""
  },
  {
   "property": "C21",
   "status": "partial",
   "theorems": [
    "Parm.C21_mul_decryptable_partial",
    "Parm.C21_squ_decryptable_partial",
    "Parm.C21_mul32_not_decryptable",
    "Parm.C21_squ31_not_decryptable",
    "Parm.C21_mul32_any",
    "Parm.C21_mul_iff",
    "Parm.C21_squ_iff"
   ],
   "note": "Decryptable exactly if both operands have at most 31 words (mul) or the operand at most 30 (squ); with an operand of 32 (mul) or of 31, 32 (squ) words the code violates the property, which is proved for all operands."
  },
  {
   "property": "C22",
   "status": "proved",
   "theorems": [
    "Parm.C22_operation",
    "Parm.C22_noisy",
    "Parm.C22_program",
    "Parm.C22_network",
    "Parm.C22_sequential"
   ],
   "note": ""
  },
  {
   "property": "C23",
   "status": "proved",
   "theorems": [
    "Parm.C23_operation",
    "Parm.C23_noisy",
    "Parm.C23_program",
    "Parm.C23_network"
   ],
   "note": ""
  },
  {
   "property": "C24",
   "status": "proved",
   "theorems": [
    "Parm.C24_operation",
    "Parm.C24_program",
    "Parm.C24_no_bootstrap"
   ],
   "note": ""
  },
  {
   "property": "C25",
   "status": "proved",
   "theorems": [
    "Parm.C25_encrypted",
    "Parm.C25_plaintext",
    "Parm.C25_agree"
   ],
   "note": ""
  },
  {
   "property": "C26",
   "status": "proved",
   "theorems": [
    "Parm.C26_table",
    "Parm.C26_lookup",
    "Parm.C26_values",
    "Parm.C26_loader_rejects",
    "Parm.C26_loader_checks_count_only"
   ],
   "note": "The YAML file is translated by tools/gen_asc.py; its content is then checked in the kernel."
  },
  {
   "property": "C27",
   "status": "proved",
   "theorems": [
    "Parm.C27_eval",
    "Parm.C27_value"
   ],
   "note": ""
  },
  {
   "property": "C28",
   "status": "proved",
   "theorems": [
    "Parm.C28_koyama_tsuruoka",
    "Parm.C28_zero",
    "Parm.C28_debug_panics"
   ],
   "note": ""
  },
  {
   "property": "C29",
   "status": "partial",
   "theorems": [
    "Parm.C29_weight_partial",
    "Parm.C29_not_naf_weight",
    "Parm.C29_exact",
    "Parm.C66_naf_weight",
    "Parm.C66_weight"
   ],
   "note": "The documented claim (same weight as the non-adjacent form) is false; its negation, the bound by the binary weight and (C66_weight) the bound by the weight of the non-adjacent form plus one are proved, and C29_exact says for exactly which digits the weight is not the smallest possible."
  },
  {
   "property": "C30",
   "status": "partial",
   "theorems": [
    "Parm.C30_naf_vec_partial",
    "Parm.C30_adjacent",
    "Parm.C30_non_adjacent_iff",
    "Parm.C30_minimal_of_no_pattern",
    "Parm.C30_weight",
    "Parm.C30_minimal_iff",
    "Parm.C30_top_bit_release",
    "Parm.C30_top_bit_debug"
   ],
   "note": "Representation proved for k < 2^31; non-adjacency and the range k >= 2^31 are false and refuted. Below 2^31 the numbers with a non-adjacent result are determined exactly (no bit pattern 01011), and so is the number of nonzero digits."
  },
  {
   "property": "C31",
   "status": "proved",
   "theorems": [
    "Parm.C31_wind_shifts",
    "Parm.C31_zero"
   ],
   "note": ""
  },
  {
   "property": "C32",
   "status": "proved",
   "theorems": [
    "Parm.C32_lookup"
   ],
   "note": ""
  },
  {
   "property": "C33",
   "status": "proved",
   "theorems": [
    "Parm.C33_trivial_agrees",
    "Parm.C33_large_entries_disagree"
   ],
   "note": "The second theorem shows that the restriction to entries below 32 is needed."
  },
  {
   "property": "C34",
   "status": "proved",
   "theorems": [
    "Parm.C34_word_ops",
    "Parm.C34_linear_decrypts"
   ],
   "note": ""
  },
  {
   "property": "C35",
   "status": "proved",
   "theorems": [
    "Parm.C35_word_decrypt",
    "Parm.C35_word_roundtrip",
    "Parm.C35_triv_exact",
    "Parm.C35_half_step_rounds_up"
   ],
   "note": ""
  },
  {
   "property": "C36",
   "status": "proved",
   "theorems": [
    "Parm.C36_nonneg"
   ],
   "note": ""
  },
  {
   "property": "C37",
   "status": "proved",
   "theorems": [
    "Parm.C37_no_key_no_plaintext",
    "Parm.C37_trivial_needs_no_key"
   ],
   "note": ""
  },
  {
   "property": "C38",
   "status": "proved",
   "theorems": [
    "Parm.C38_setting",
    "Parm.C38_programs",
    "Parm.C38_tight_add",
    "Parm.C38_tight_max",
    "Parm.C38_tight_sgn"
   ],
   "note": "The tight theorems show for every quad_weight that the factor 8, 9 or 15 cannot be lowered, nor the inequality be made non-strict."
  },
  {
   "property": "C39",
   "status": "partial",
   "theorems": [
    "Parm.C39_independent_partial",
    "Parm.C39_add",
    "Parm.C39_add_const",
    "Parm.C39_sgn",
    "Parm.C39_round_at",
    "Parm.C39_max",
    "Parm.C39_relu",
    "Parm.C39_mul",
    "Parm.C39_squ",
    "Parm.C39_mul_met",
    "Parm.C39_independent_short",
    "Parm.C39_mul_one_word",
    "Parm.C39_squ_short",
    "Parm.C39_programs_linear",
    "Parm.C39_programs_real",
    "Parm.C39_faithful",
    "Parm.C39_bounds_met",
    "Parm.C39_add_dependent",
    "Parm.C39_scalar_mul_exceeds",
    "Parm.C39_mul_trivial_exceeds",
    "Parm.C39_mul_zeros",
    "Parm.C39_mul_shifted",
    "Parm.C39_squ_zeros",
    "Parm.C39_mul_zeros_exceeds",
    "Parm.C39_squ_zeros_exceeds"
   ],
   "note": "The full claim is false for scalar_mul, for products and squares with trivial words (even if these are zeros, as in shifted operands) and for dependent operands (refuted by witnesses). Proved: all operations on independent operands (products and squares of encrypted operands of every length, products of up to 15 or of 17 words with trivial zeros anywhere, squares of up to five words with trivial zeros anywhere), and for every program and any operands the linear bound 8 / 9 / 15. Missing: for which positions of trivial words longer products and squares, or those with trivial words other than zero, exceed the weight. Covered are bootstraps that contribute to the result."
  },
  {
   "property": "C40",
   "status": "proved",
   "theorems": [
    "Parm.C40_below",
    "Parm.C40_above"
   ],
   "note": ""
  },
  {
   "property": "C41",
   "status": "proved",
   "theorems": [
    "Parm.C41_first",
    "Parm.C41_later",
    "Parm.C41_history",
    "Parm.C41_generate",
    "Parm.C41_load"
   ],
   "note": ""
  },
  {
   "property": "C42",
   "status": "partial",
   "theorems": [
    "Parm.C42_prefix_partial",
    "Parm.C42_recovers_partial",
    "Parm.C42_truncated",
    "Parm.C42_truncated_file_is_permanent"
   ],
   "note": "The property is false; proved: which states a crash can leave, recovery from an absent or complete file, and that a truncated file makes every later construction fail."
  },
  {
   "property": "C43",
   "status": "proved",
   "theorems": [
    "Parm.C43_fileName",
    "Parm.C43_shared",
    "Parm.C43_separate"
   ],
   "note": ""
  },
  {
   "property": "C44",
   "status": "proved",
   "theorems": [
    "Parm.C44_program",
    "Parm.C44_only_long_factors_fail",
    "Parm.C44_end_to_end"
   ],
   "note": ""
  },
  {
   "property": "C45",
   "status": "proved",
   "theorems": [
    "Parm.C45_bit_len_32",
    "Parm.C45_bit_len_64"
   ],
   "note": ""
  },
  {
   "property": "C46",
   "status": "proved",
   "theorems": [
    "Parm.C46_bin_hw",
    "Parm.C46_bin_hw_err"
   ],
   "note": ""
  },
  {
   "property": "C47",
   "status": "proved",
   "theorems": [
    "Parm.C47_operations",
    "Parm.C47_program"
   ],
   "note": ""
  },
  {
   "property": "C48",
   "status": "proved",
   "theorems": [
    "Parm.C48_level",
    "Parm.C48_restored",
    "Parm.C48_outermost",
    "Parm.C48_saturates",
    "Parm.C48_early_exit",
    "Parm.C48_constructor"
   ],
   "note": ""
  },
  {
   "property": "C49",
   "status": "proved",
   "theorems": [
    "Parm.C49_exact",
    "Parm.C49_release",
    "Parm.C49_debug_overflow",
    "Parm.C49_shift",
    "Parm.C49_round_panics",
    "Parm.C49_noisy",
    "Parm.C49_program",
    "Parm.C49_debug_exact",
    "Parm.C49_predicts"
   ],
   "note": ""
  },
  {
   "property": "C50",
   "status": "partial",
   "theorems": [
    "Parm.C50_unchecked",
    "Parm.C50_add_const",
    "Parm.C50_scalar_mul_partial",
    "Parm.C50_add_const_partial",
    "Parm.C50_program_partial",
    "Parm.C50_network_partial",
    "Parm.C50_encrypt_partial",
    "Parm.C50_decrypt",
    "Parm.C50_encrypt_long",
    "Parm.C50_scalar_mul_91",
    "Parm.C50_scalar_mul_min",
    "Parm.C50_scalar_mul_small",
    "Parm.C50_scalar_mul_windows",
    "Parm.C50_recoding_iff",
    "Parm.C50_scalar_mul_iff",
    "Parm.C50_safe_of_digits",
    "Parm.C50_scalar_mul_safe",
    "Parm.C50_network_safe",
    "Parm.C12_add_const_min_debug",
    "Parm.C01_min_debug_panics"
   ],
   "note": "The property is false (scalar_mul by 91 panics in debug builds, proved for every ciphertext). Proved: every operation, program and network either panics by overflow in the debug build or has the outcome of the release build; only encrypt, add_const and scalar_mul can panic; scalar_mul above i32::MIN panics exactly for the scalars whose recoding has, below the bit length, two digits -1 with a 1 above them and none between them."
  },
  {
   "property": "C51",
   "status": "partial",
   "theorems": [
    "Parm.C51_one_writer_partial",
    "Parm.C41_later",
    "Parm.C51_two_keys",
    "Parm.C51_reader_fails",
    "Parm.C51_mixture",
    "Parm.C51_mismatched_pair"
   ],
   "note": "The property is false; proved: with one exporter, readers started after creation get its keys or fail; refuted for two exporters, and for readers during the export."
  },
  {
   "property": "C52",
   "status": "proved",
   "theorems": [
    "Parm.C52_log",
    "Parm.C52_untouched",
    "Parm.C52_removed",
    "Parm.C52_steps",
    "Parm.C52_threads",
    "Parm.C52_torn",
    "Parm.C52_race_loses_line",
    "Parm.C52_race_truncates",
    "Parm.C52_race_panics",
    "Parm.C52_race_early_flag"
   ],
   "note": ""
  },
  {
   "property": "C53",
   "status": "partial",
   "theorems": [
    "Parm.C53_reported_partial",
    "Parm.C53_lost_write",
    "Parm.C41_first"
   ],
   "note": "The property is false and refuted; errors before the writer is dropped are reported, and without failing system call the file is complete (C41_first)."
  },
  {
   "property": "C54",
   "status": "proved",
   "theorems": [
    "Parm.C54_local",
    "Parm.C54_dependencies",
    "Parm.C54_window_met"
   ],
   "note": ""
  },
  {
   "property": "C55",
   "status": "proved",
   "theorems": [
    "Parm.C55_add",
    "Parm.C55_add_const",
    "Parm.C55_sgn",
    "Parm.C55_max",
    "Parm.C55_relu",
    "Parm.C55_round_at",
    "Parm.C55_mul",
    "Parm.C55_squ",
    "Parm.C55_scalar_mul",
    "Parm.C55_mul_exact",
    "Parm.C55_squ_exact",
    "Parm.C55_bounds_met",
    "Parm.C39_faithful"
   ],
   "note": "Depth of the data dependencies of the result, on terms; C39_faithful carries it to every scheme."
  },
  {
   "property": "C56",
   "status": "proved",
   "theorems": [
    "Parm.C56_mul_cost",
    "Parm.C56_squ_cost",
    "Parm.C56_formula"
   ],
   "note": ""
  },
  {
   "property": "C57",
   "status": "proved",
   "theorems": [
    "Parm.C57_program",
    "Parm.C57_network",
    "Parm.C57_network_valid",
    "Parm.C57_accumulate",
    "Parm.C57_accumulate_undecryptable"
   ],
   "note": ""
  },
  {
   "property": "C58",
   "status": "partial",
   "theorems": [
    "Parm.C58_arith_demo_eval",
    "Parm.C58_arith_demo",
    "Parm.C58_arith_demo_lines_partial",
    "Parm.C58_arrhythmia",
    "Parm.C58_nn_demo",
    "Parm.C58_nn_demo_debug",
    "Parm.C58_demo_nn_partial",
    "Parm.C58_arith_verdicts",
    "Parm.C58_nn_verdicts"
   ],
   "note": "The property is false and refuted for both demos, in both builds; proved: all values are exact, which lines decrypt, and that the small network passes."
  },
  {
   "property": "C59",
   "status": "proved",
   "theorems": [
    "Parm.C59_optimal",
    "Parm.C59_no_shorter_chain",
    "Parm.C59_met"
   ],
   "note": "Chains are compared modulo 2^16, where only 17 shifts are left; all chains of up to three elements that remain are evaluated in the kernel."
  },
  {
   "property": "C60",
   "status": "proved",
   "theorems": [
    "Parm.C60_cost",
    "Parm.C60_cost_bits",
    "Parm.C60_power_free"
   ],
   "note": "If a value is returned; that and when it is returned for valid arguments is C13."
  },
  {
   "property": "C61",
   "status": "proved",
   "theorems": [
    "Parm.C61_experiment",
    "Parm.C61_window",
    "Parm.C61_debug_panics"
   ],
   "note": ""
  },
  {
   "property": "C62",
   "status": "proved",
   "theorems": [
    "Parm.C62_mul",
    "Parm.C62_squ",
    "Parm.C62_add",
    "Parm.C62_sgn",
    "Parm.C62_max",
    "Parm.C62_relu",
    "Parm.C62_roundAt",
    "Parm.C62_program",
    "Parm.C62_network",
    "Parm.C62_accumulate",
    "Parm.C62_mul_sharp",
    "Parm.C62_shipped_networks"
   ],
   "note": "If a value is returned; the cost of scalar multiplication is bounded as in C60 (shipped table, i32 scalars)."
  },
  {
   "property": "C63",
   "status": "proved",
   "theorems": [
    "Parm.C63_local",
    "Parm.C63_program",
    "Parm.C63_network"
   ],
   "note": "Union bound over the samples of the symbolic run; the probability of a single encryption or bootstrap failing is a hypothesis (it depends on the parameters and on the concrete library)."
  },
  {
   "property": "C64",
   "status": "proved",
   "theorems": [
    "Parm.C64_schoolbook",
    "Parm.C64_choice",
    "Parm.C64_comment",
    "Parm.C64_depth"
   ],
   "note": "Both operands fully encrypted and of equal length, as in C56."
  },
  {
   "property": "C65",
   "status": "proved",
   "theorems": [
    "Parm.C65_single",
    "Parm.C65_atomic",
    "Parm.C65_drift",
    "Parm.C65_raised",
    "Parm.C65_lowered",
    "Parm.C65_underflow"
   ],
   "note": "The accesses of LOG_LVL are taken in program order (a data race is undefined behaviour in Rust); atomic updates are a comparison, not the code."
  },
  {
   "property": "C66",
   "status": "proved",
   "theorems": [
    "Parm.C66_naf_minimal",
    "Parm.C66_weight",
    "Parm.C66_naf_weight",
    "Parm.C66_runs",
    "Parm.C66_tight",
    "Parm.C66_not_longer"
   ],
   "note": "Release build (the debug build overflows for some k, C28). The averaged-over-k reading of the comment is not stated."
  },
  {
   "property": "C67",
   "status": "proved",
   "theorems": [
    "Parm.C67_mul_exact",
    "Parm.C67_mul_choice",
    "Parm.C67_schoolbook",
    "Parm.C67_squ",
    "Parm.C67_squ_choice"
   ],
   "note": "Lengths 1 to 32 are the complete domain of the recursive operations (C20); the tables are evaluated by the kernel."
  },
  {
   "property": "C68",
   "status": "proved",
   "theorems": [
    "Parm.Fmt.C68_info",
    "Parm.Fmt.C68_dbg",
    "Parm.Fmt.C68_err",
    "Parm.Fmt.C68_info_injective",
    "Parm.Fmt.C68_box",
    "Parm.Fmt.C68_box_panics",
    "Parm.Fmt.C68_box_ascii",
    "Parm.Fmt.C68_box_witness",
    "Parm.Fmt.C68_log_line",
    "Parm.Fmt.C68_log_hour",
    "Parm.Fmt.C68_indent",
    "Parm.Fmt.C68_stamp"
   ],
   "note": "Colour escape sequences are dropped; time stamps are milliseconds without leap seconds."
  },
  {
   "property": "C69",
   "status": "proved",
   "theorems": [
    "Parm.C69_operation",
    "Parm.C69_noisy",
    "Parm.C69_program",
    "Parm.C69_network",
    "Parm.C69_values",
    "Parm.C69_network_values"
   ],
   "note": "Steps are bootstraps and the ends of regions; what a task does in between touches only its own slot. The model with interleaved tasks is generated from the model text."
  },
  {
   "property": "C70",
   "status": "proved",
   "theorems": [
    "Parm.C70_operation",
    "Parm.C70_add_constant",
    "Parm.C70_mul",
    "Parm.C70_sgn",
    "Parm.C70_sgn_pow",
    "Parm.C70_program",
    "Parm.C70_network",
    "Parm.arithSpan_congr",
    "Parm.C70_shipped_networks",
    "Parm.C70_values",
    "Parm.Timing.one",
    "Parm.Timing.many",
    "Parm.Timing.unique",
    "Parm.Timing.factor_two"
   ],
   "note": "Bootstraps take equal time, everything else no time; workers take any waiting bootstrap (no work-stealing overhead)."
  },
  {
   "property": "C71",
   "status": "proved",
   "theorems": [
    "Parm.C71_pass",
    "Parm.C71_suite",
    "Parm.C71_debug",
    "Parm.C71_debug_can_fail"
   ],
   "note": "Tests run one after the other with keys already on disk; on the first run the two lazy statics of tests/common/mod.rs both create keys (see C51)."
  },
  {
   "property": "C72",
   "status": "proved",
   "theorems": [
    "Parm.C72_agree",
    "Parm.C72_value",
    "Parm.C72_right_iff"
   ],
   "note": "The floating-point logarithm of the script is a parameter."
  },
  {
   "property": "C73",
   "status": "proved",
   "theorems": [
    "Parm.C73_chains",
    "Parm.C73_table",
    "Parm.C73_eval",
    "Parm.C73_ends",
    "Parm.C73_small"
   ],
   "note": "Printing a line and splitting it again is C82. That the shipped table is the output of the scripts was compared outside Lean (the log parses to assets/asc-12.yaml; the first three rounds were re-run for limits 11 and 13); that the shipped table is right is asc12_tableOk, by a kernel computation."
  },
  {
   "property": "C74",
   "status": "proved",
   "theorems": [
    "Parm.C74_linear",
    "Parm.C74_nonlinear",
    "Parm.C74_products",
    "Parm.C74_constants",
    "Parm.C74_program",
    "Parm.C74_only_long_factors_fail",
    "Parm.C74_decrypt"
   ],
   "note": "Scalar multiplication in release builds with the shipped table (C50 covers debug builds); add_const of i64::MIN in release builds only (it panics in debug builds). The words are those of the shipped moduli, 32 and carry 1."
  },
  {
   "property": "C75",
   "status": "proved",
   "theorems": [
    "Parm.C75_readme_pass",
    "Parm.C75_readme_empty",
    "Parm.C75_readme_too_long",
    "Parm.C75_readme_reject",
    "Parm.C75_verdict",
    "Parm.C75_readme"
   ],
   "note": "All vectors; the four theorems cover all cases: digits up to 62 words, an empty vector, longer vectors, other entries."
  },
  {
   "property": "C76",
   "status": "proved",
   "theorems": [
    "Parm.C76_linear",
    "Parm.C76_mul",
    "Parm.C76_squ",
    "Parm.C76_relu"
   ],
   "note": "the wrong results are exhibited in a conforming scheme with the smallest admissible polynomial (Proof/EdgeInstance.lean) and refute safety of mul, squ and relu on noisy operands"
  },
  {
   "property": "C77",
   "status": "proved",
   "theorems": [
    "Parm.C77_needs",
    "Parm.C77_first",
    "Parm.C77_calls",
    "Parm.C77_loaded",
    "Parm.C77_poisoned",
    "Parm.C77_first_fails",
    "Parm.C77_refused",
    "Parm.C77_any_table",
    "Parm.C77_wrong_table"
   ],
   "note": "lazy_static's behaviour (initialise once, poisoned after a panic) is trusted; a YAML text is represented by what it parses to. The panic payload of poisoned accesses is modelled as an assertion."
  },
  {
   "property": "C78",
   "status": "proved",
   "theorems": [
    "Parm.Tfhe.C78_contract",
    "Parm.Tfhe.C78_setting",
    "Parm.Tfhe.C78_program",
    "Parm.Tfhe.C78_linear",
    "Parm.Tfhe.C78_drift",
    "Parm.Tfhe.C78_sample",
    "Parm.Tfhe.Case.fits",
    "Parm.Tfhe.Case.not_fits"
   ],
   "note": "The textbook algorithms stand for tfhe-rs, whose source is not in the repository; tfhe-rs multiplies polynomials by floating-point Fourier transforms. Worst-case bounds; they fit e.g. 64 key bits with N = 2048 and the shipped quad_weight."
  },
  {
   "property": "C79",
   "status": "proved",
   "theorems": [
    "Parm.C36_nonneg",
    "Parm.C79_id",
    "Parm.C79_f3",
    "Parm.C79_f4",
    "Parm.C79_f5",
    "Parm.C79_g2",
    "Parm.C79_f1",
    "Parm.C79_f0",
    "Parm.C79_a2",
    "Parm.C79_a1",
    "Parm.C79_mul_bit",
    "Parm.C79_relu_plus",
    "Parm.C79_round",
    "Parm.C79_max",
    "Parm.C79_squ",
    "Parm.C79_squ_panics"
   ],
   "note": "Each theorem is an equivalence: the result is the documented value exactly on the given messages."
  },
  {
   "property": "C80",
   "status": "partial",
   "theorems": [
    "Parm.C80_independent",
    "Parm.C80_add",
    "Parm.C80_add_const",
    "Parm.C80_sgn",
    "Parm.C80_round_at",
    "Parm.C80_max",
    "Parm.C80_relu",
    "Parm.C80_programs",
    "Parm.C80_variance",
    "Parm.C80_mul_iff",
    "Parm.C80_mul",
    "Parm.C80_squ",
    "Parm.C80_mul_exceeds",
    "Parm.C80_mul_empty_exceeds",
    "Parm.C80_mul_zeros",
    "Parm.C80_squ_zeros",
    "Parm.C80_mul_shift_exceeds",
    "Parm.C80_squ_zeros_exceeds",
    "Parm.C80_canonical",
    "Parm.C80_combination",
    "Parm.Tfhe.C80_lawful"
   ],
   "note": "The claim is false for products of very different lengths (C80_mul_exceeds, C80_mul_empty_exceeds) and for operands with zeros below or in between (C80_mul_shift_exceeds, C80_squ_zeros_exceeds); for operands without trivial words C80_mul_iff says exactly for which lengths it holds. With trivial zeros anywhere it holds for products of at most two words and squares of at most five (C80_mul_zeros, C80_squ_zeros); the witnesses have three and six."
  },
  {
   "property": "C81",
   "status": "proved",
   "theorems": [
    "Parm.C81_program",
    "Parm.C81_program_worst",
    "Parm.C81_fresh",
    "Parm.C81_network"
   ],
   "note": "Sub-Gaussian errors, independent within each bootstrapped word; the rounding of the body is bounded, not random. n and the lengths of results come from the symbolic run (C81_program, C81_fresh) or from the numbers of words (C62)."
  },
  {
   "property": "C82",
   "status": "proved",
   "theorems": [
    "Parm.C82_log",
    "Parm.C82_whole",
    "Parm.C82_gap",
    "Parm.C82_gap_raises",
    "Parm.C82_warned",
    "Parm.C82_roundtrip",
    "Parm.C82_symbols",
    "Parm.C82_load",
    "Parm.C82_count",
    "Parm.C82_shipped",
    "Parm.C82_duplicates",
    "Parm.C82_duplicate_lines"
   ],
   "note": "YAML: only the block layout of the table; what Ruby's YAML.dump and serde_yaml do with it is trusted (tools/check_text.sh compares with the files of the repository). Ruby's to_i without underscores."
  },
  {
   "property": "C83",
   "status": "proved",
   "theorems": [
    "Parm.C83_complete",
    "Parm.C83_optimal",
    "Parm.C83_script"
   ],
   "note": "Chains of odd positive numbers, shifts of at least one, shifted operands up to 2^(LIMIT_WID-1). That four additions are not exhaustive is read off the log (DESIGN.md, finding 25), not proved."
  },
  {
   "property": "C84",
   "status": "proved",
   "theorems": [
    "Parm.GenChains.C84_keys",
    "Parm.GenChains.C84_trees",
    "Parm.GenChains.C84_nops"
   ],
   "note": "the script with LIMIT_LOG as a parameter; the final sorted printing is not modelled"
  },
  {
   "property": "C85",
   "status": "proved",
   "theorems": [
    "Parm.C85_program",
    "Parm.C85_least",
    "Parm.C85_network",
    "Parm.C85_network_least"
   ],
   "note": "For constants and scalars other than 3 the budget is shown to be sufficient only. The lower bounds for networks are those of one perceptron of each kind with weights 1."
  }
 ]
}