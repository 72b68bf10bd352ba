#!/usr/bin/env python3
"""Writes MANIFEST.json."""
import json, os
claims = []
def c(prop, status, theorems, note=""):
    claims.append({"property": prop, "status": status,
                   "theorems": ["Parm." + t for t in theorems.split()], "note": note})

c("C01", "proved", "C01_encrypt_decrypt C01_roundtrip C01_min_release C01_min_debug_panics",
  "The most negative i64 (excluded by the property) is covered separately: truncation in release, panic in debug.")
c("C02", "proved", "C02_vec_roundtrip C02_vec_reject")
c("C03", "proved", "C03_decrypt_total")
c("C04", "proved", "C04_add")
c("C05", "proved", "C05_sub")
c("C06", "proved", "C06_add_noisy C06_sub_noisy C06_trait C06_trait_cost")
c("C08", "proved", "C08_left_zero C08_right_zero C08_length C08_length_le")
c("C09", "proved", "C09_add_cost")
c("C10", "proved", "C10_opp")
c("C11", "proved", "C11_shift")
c("C12", "proved", "C12_add_const C12_add_const_min_debug C12_add_const_min_release")
c("C14", "proved", "C14_sgn")
c("C15", "proved", "C15_max")
c("C16", "proved", "C16_relu")
c("C17", "proved", "C17_mul")
c("C18", "proved", "C18_squ")
c("C20", "proved", "C20_mul_too_long C20_squ_too_long C20_mul_fails_iff C20_squ_fails_iff")
c("C19", "proved", "C19_round_at C19_round_at_value")
c("C32", "proved", "C32_lookup")
c("C33", "proved", "C33_trivial_agrees C33_large_entries_disagree",
  "The second theorem shows that the restriction to entries below 32 is needed.")
c("C34", "proved", "C34_word_ops C34_linear_decrypts")
c("C36", "proved", "C36_nonneg")
c("C35", "proved", "C35_word_decrypt C35_word_roundtrip C35_triv_exact C35_half_step_rounds_up")
c("C37", "proved", "C37_no_key_no_plaintext C37_trivial_needs_no_key")
c("C13", "proved", "C13_scalar_mul C13_scalar_mul_debug C13_small")
c("C25", "proved", "C25_encrypted C25_plaintext C25_agree")
c("C26", "proved", "C26_table C26_lookup C26_values C26_loader_rejects C26_loader_checks_count_only",
  "The YAML file is translated by tools/gen_asc.py; its content is then checked in the kernel.")
c("C27", "proved", "C27_eval C27_value")
c("C28", "proved", "C28_koyama_tsuruoka C28_zero C28_debug_panics")
c("C29", "partial", "C29_weight_partial C29_not_naf_weight C29_exact C66_naf_weight C66_weight",
  "The documented claim (same weight as the non-adjacent form) is false; its negation, the bound by the binary weight and (C66_weight) the bound by the weight of the non-adjacent form plus one are proved, and C29_exact says for exactly which digits the weight is not the smallest possible.")
c("C30", "partial", "C30_naf_vec_partial C30_adjacent C30_non_adjacent_iff C30_minimal_of_no_pattern C30_weight C30_minimal_iff C30_top_bit_release C30_top_bit_debug",
  "Representation proved for k < 2^31; non-adjacency and the range k >= 2^31 are false and refuted. Below 2^31 the numbers with a non-adjacent result are determined exactly (no bit pattern 01011), and so is the number of nonzero digits.")
c("C31", "proved", "C31_wind_shifts C31_zero")
c("C07", "proved", "C07_closure C44_program")
c("C38", "proved", "C38_setting C38_programs C38_tight_add C38_tight_max C38_tight_sgn",
  "The tight theorems show for every quad_weight that the factor 8, 9 or 15 cannot be lowered, nor the inequality be made non-strict.")
c("C44", "proved", "C44_program C44_only_long_factors_fail C44_end_to_end")
c("C21", "partial", "C21_mul_decryptable_partial C21_squ_decryptable_partial C21_mul32_not_decryptable C21_squ31_not_decryptable C21_mul32_any C21_mul_iff C21_squ_iff",
  "Decryptable exactly if both operands have at most 31 words (mul) or the operand at most 30 (squ); with an operand of 32 (mul) or of 31, 32 (squ) words the code violates the property, which is proved for all operands.")
c("C22", "proved", "C22_operation C22_noisy C22_program C22_network C22_sequential")
c("C23", "proved", "C23_operation C23_noisy C23_program C23_network")
c("C24", "proved", "C24_operation C24_program C24_no_bootstrap")
c("C45", "proved", "C45_bit_len_32 C45_bit_len_64")
c("C46", "proved", "C46_bin_hw C46_bin_hw_err")
c("C49", "proved", "C49_exact C49_release C49_debug_overflow C49_shift C49_round_panics C49_noisy C49_program C49_debug_exact C49_predicts")
c("C50", "partial", "C50_unchecked C50_add_const C50_scalar_mul_partial C50_add_const_partial C50_program_partial C50_network_partial C50_encrypt_partial C50_decrypt C50_encrypt_long C50_scalar_mul_91 C50_scalar_mul_min C50_scalar_mul_small C50_scalar_mul_windows C50_recoding_iff C50_scalar_mul_iff C50_safe_of_digits C50_scalar_mul_safe C50_network_safe C12_add_const_min_debug C01_min_debug_panics",
  "The property is false (scalar_mul by 91 panics in debug builds, proved for every ciphertext). Proved: every operation, program and network either panics by overflow in the debug build or has the outcome of the release build; only encrypt, add_const and scalar_mul can panic; scalar_mul above i32::MIN panics exactly for the scalars whose recoding has, below the bit length, two digits -1 with a 1 above them and none between them.")
c("C40", "proved", "C40_below C40_above")
c("C41", "proved", "C41_first C41_later C41_history C41_generate C41_load")
c("C42", "partial", "C42_prefix_partial C42_recovers_partial C42_truncated C42_truncated_file_is_permanent",
  "The property is false; proved: which states a crash can leave, recovery from an absent or complete file, and that a truncated file makes every later construction fail.")
c("C43", "proved", "C43_fileName C43_shared C43_separate")
c("C51", "partial", "C51_one_writer_partial C41_later C51_two_keys C51_reader_fails C51_mixture C51_mismatched_pair",
  "The property is false; proved: with one exporter, readers started after creation get its keys or fail; refuted for two exporters, and for readers during the export.")
c("C53", "partial", "C53_reported_partial C53_lost_write C41_first",
  "The property is false and refuted; errors before the writer is dropped are reported, and without failing system call the file is complete (C41_first).")
c("C47", "proved", "C47_operations C47_program")
c("C48", "proved", "C48_level C48_restored C48_outermost C48_saturates C48_early_exit C48_constructor")
c("C52", "proved", "C52_log C52_untouched C52_removed C52_steps C52_threads C52_torn C52_race_loses_line C52_race_truncates C52_race_panics C52_race_early_flag")

c("C39", "partial", "C39_independent_partial C39_add C39_add_const C39_sgn C39_round_at C39_max C39_relu C39_mul C39_squ C39_mul_met C39_independent_short C39_mul_one_word C39_squ_short C39_programs_linear C39_programs_real C39_faithful C39_bounds_met C39_add_dependent C39_scalar_mul_exceeds C39_mul_trivial_exceeds C39_mul_zeros C39_mul_shifted C39_squ_zeros C39_mul_zeros_exceeds C39_squ_zeros_exceeds",
  "The full claim is false for scalar_mul, for products and squares with trivial words (even if these are zeros, as in shifted operands) and for dependent operands (refuted by witnesses). Proved: all operations on independent operands (products and squares of encrypted operands of every length, products of up to 15 or of 17 words with trivial zeros anywhere, squares of up to five words with trivial zeros anywhere), and for every program and any operands the linear bound 8 / 9 / 15. Missing: for which positions of trivial words longer products and squares, or those with trivial words other than zero, exceed the weight. Covered are bootstraps that contribute to the result.")
c("C54", "proved", "C54_local C54_dependencies C54_window_met")
c("C55", "proved", "C55_add C55_add_const C55_sgn C55_max C55_relu C55_round_at C55_mul C55_squ C55_scalar_mul C55_mul_exact C55_squ_exact C55_bounds_met C39_faithful",
  "Depth of the data dependencies of the result, on terms; C39_faithful carries it to every scheme.")
c("C56", "proved", "C56_mul_cost C56_squ_cost C56_formula")
c("C57", "proved", "C57_program C57_network C57_network_valid C57_accumulate C57_accumulate_undecryptable")
c("C58", "partial", "C58_arith_demo_eval C58_arith_demo C58_arith_demo_lines_partial C58_arrhythmia C58_nn_demo C58_nn_demo_debug C58_demo_nn_partial C58_arith_verdicts C58_nn_verdicts",
  "The property is false and refuted for both demos, in both builds; proved: all values are exact, which lines decrypt, and that the small network passes.")
c("C59", "proved", "C59_optimal C59_no_shorter_chain C59_met",
  "Chains are compared modulo 2^16, where only 17 shifts are left; all chains of up to three elements that remain are evaluated in the kernel.")
c("C60", "proved", "C60_cost C60_cost_bits C60_power_free",
  "If a value is returned; that and when it is returned for valid arguments is C13.")
c("C61", "proved", "C61_experiment C61_window C61_debug_panics")
c("C62", "proved", "C62_mul C62_squ C62_add C62_sgn C62_max C62_relu C62_roundAt C62_program C62_network C62_accumulate C62_mul_sharp C62_shipped_networks",
  "If a value is returned; the cost of scalar multiplication is bounded as in C60 (shipped table, i32 scalars).")
c("C63", "proved", "C63_local C63_program C63_network",
  "Union bound over the samples of the symbolic run; the probability of a single encryption or bootstrap failing is a hypothesis (it depends on the parameters and on the concrete library).")
c("C64", "proved", "C64_schoolbook C64_choice C64_comment C64_depth",
  "Both operands fully encrypted and of equal length, as in C56.")
c("C65", "proved", "C65_single C65_atomic C65_drift C65_raised C65_lowered C65_underflow",
  "The accesses of LOG_LVL are taken in program order (a data race is undefined behaviour in Rust); atomic updates are a comparison, not the code.")
c("C66", "proved", "C66_naf_minimal C66_weight C66_naf_weight C66_runs C66_tight C66_not_longer",
  "Release build (the debug build overflows for some k, C28). The averaged-over-k reading of the comment is not stated.")
c("C67", "proved", "C67_mul_exact C67_mul_choice C67_schoolbook C67_squ C67_squ_choice",
  "Lengths 1 to 32 are the complete domain of the recursive operations (C20); the tables are evaluated by the kernel.")
c("C68", "proved", "Fmt.C68_info Fmt.C68_dbg Fmt.C68_err Fmt.C68_info_injective Fmt.C68_box Fmt.C68_box_panics Fmt.C68_box_ascii Fmt.C68_box_witness Fmt.C68_log_line Fmt.C68_log_hour Fmt.C68_indent Fmt.C68_stamp",
  "Colour escape sequences are dropped; time stamps are milliseconds without leap seconds.")
c("C69", "proved", "C69_operation C69_noisy C69_program C69_network C69_values C69_network_values",
  "Steps are bootstraps and the ends of regions; what a task does in between touches only its own slot. The model with interleaved tasks is generated from the model text.")
c("C70", "proved", "C70_operation C70_add_constant C70_mul C70_sgn C70_sgn_pow C70_program C70_network arithSpan_congr C70_shipped_networks C70_values Timing.one Timing.many Timing.unique Timing.factor_two",
  "Bootstraps take equal time, everything else no time; workers take any waiting bootstrap (no work-stealing overhead).")
c("C71", "proved", "C71_pass C71_suite C71_debug C71_debug_can_fail",
  "Tests run one after the other with keys already on disk; on the first run the two lazy statics of tests/common/mod.rs both create keys (see C51).")
c("C72", "proved", "C72_agree C72_value C72_right_iff",
  "The floating-point logarithm of the script is a parameter.")
c("C73", "proved", "C73_chains C73_table C73_eval C73_ends C73_small",
  "Printing a line and splitting it again is C82. That the shipped table is the output of the scripts was compared outside Lean (the log parses to assets/asc-12.yaml; the first three rounds were re-run for limits 11 and 13); that the shipped table is right is asc12_tableOk, by a kernel computation.")
c("C74", "proved", "C74_linear C74_nonlinear C74_products C74_constants C74_program C74_only_long_factors_fail C74_decrypt",
  "Scalar multiplication in release builds with the shipped table (C50 covers debug builds); add_const of i64::MIN in release builds only (it panics in debug builds). The words are those of the shipped moduli, 32 and carry 1.")
c("C75", "proved", "C75_readme_pass C75_readme_empty C75_readme_too_long C75_readme_reject C75_verdict C75_readme",
  "All vectors; the four theorems cover all cases: digits up to 62 words, an empty vector, longer vectors, other entries.")
c("C76", "proved", "C76_linear C76_mul C76_squ C76_relu",
  "the wrong results are exhibited in a conforming scheme with the smallest admissible polynomial (Proof/EdgeInstance.lean) and refute safety of mul, squ and relu on noisy operands")
c("C77", "proved", "C77_needs C77_first C77_calls C77_loaded C77_poisoned C77_first_fails C77_refused C77_any_table C77_wrong_table",
  "lazy_static's behaviour (initialise once, poisoned after a panic) is trusted; a YAML text is represented by what it parses to. The panic payload of poisoned accesses is modelled as an assertion.")
c("C78", "proved", "Tfhe.C78_contract Tfhe.C78_setting Tfhe.C78_program Tfhe.C78_linear Tfhe.C78_drift Tfhe.C78_sample Tfhe.Case.fits Tfhe.Case.not_fits",
  "The textbook algorithms stand for tfhe-rs, whose source is not in the repository; tfhe-rs multiplies polynomials by floating-point Fourier transforms. Worst-case bounds; they fit e.g. 64 key bits with N = 2048 and the shipped quad_weight.")
c("C79", "proved", "C36_nonneg C79_id C79_f3 C79_f4 C79_f5 C79_g2 C79_f1 C79_f0 C79_a2 C79_a1 C79_mul_bit C79_relu_plus C79_round C79_max C79_squ C79_squ_panics",
  "Each theorem is an equivalence: the result is the documented value exactly on the given messages.")
c("C80", "partial", "C80_independent C80_add C80_add_const C80_sgn C80_round_at C80_max C80_relu C80_programs C80_variance C80_mul_iff C80_mul C80_squ C80_mul_exceeds C80_mul_empty_exceeds C80_mul_zeros C80_squ_zeros C80_mul_shift_exceeds C80_squ_zeros_exceeds C80_canonical C80_combination Tfhe.C80_lawful",
  "The claim is false for products of very different lengths (C80_mul_exceeds, C80_mul_empty_exceeds) and for operands with zeros below or in between (C80_mul_shift_exceeds, C80_squ_zeros_exceeds); for operands without trivial words C80_mul_iff says exactly for which lengths it holds. With trivial zeros anywhere it holds for products of at most two words and squares of at most five (C80_mul_zeros, C80_squ_zeros); the witnesses have three and six.")
c("C81", "proved", "C81_program C81_program_worst C81_fresh C81_network",
  "Sub-Gaussian errors, independent within each bootstrapped word; the rounding of the body is bounded, not random. n and the lengths of results come from the symbolic run (C81_program, C81_fresh) or from the numbers of words (C62).")
c("C82", "proved", "C82_log C82_whole C82_gap C82_gap_raises C82_warned C82_roundtrip C82_symbols C82_load C82_count C82_shipped C82_duplicates C82_duplicate_lines",
  "YAML: only the block layout of the table; what Ruby's YAML.dump and serde_yaml do with it is trusted (tools/check_text.sh compares with the files of the repository). Ruby's to_i without underscores.")
c("C83", "proved", "C83_complete C83_optimal C83_script",
  "Chains of odd positive numbers, shifts of at least one, shifted operands up to 2^(LIMIT_WID-1). That four additions are not exhaustive is read off the log (DESIGN.md, finding 25), not proved.")
c("C84", "proved", "GenChains.C84_keys GenChains.C84_trees GenChains.C84_nops",
  "the script with LIMIT_LOG as a parameter; the final sorted printing is not modelled")
c("C85", "proved", "C85_program C85_least C85_network C85_network_least",
  "For constants and scalars other than 3 the budget is shown to be sufficient only. The lower bounds for networks are those of one perceptron of each kind with weights 1.")
claims.sort(key=lambda d: d["property"])
out = os.path.join(os.path.dirname(os.path.abspath(__file__)), "..", "MANIFEST.json")
json.dump({"claims": claims}, open(out, "w"), indent=1)
