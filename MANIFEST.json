{"claims": [
{"property": "C01", "status": "proved", "theorems": ["Ama.x0_zero", "Ama.x0_zero_step"], "note": "invariant of every step, hence of every run"},
{"property": "C02", "status": "proved", "theorems": ["Ama.step_refines", "Ama.computational_step"], "note": "non-strict reading of C++ shifts/overflow; state ready to execute (awake, no deliverable interrupt, executable pc)"},
{"property": "C03", "status": "proved", "theorems": ["Ama.alu_value", "Ama.div_rem_recompose"], "note": "value of every M operation against integer arithmetic"},
{"property": "C04", "status": "proved", "theorems": ["Ama.alu_value"], "note": ""},
{"property": "C05", "status": "proved", "theorems": ["Ama.decode_R", "Ama.decode_I", "Ama.decode_S", "Ama.decode_B", "Ama.decode_U", "Ama.decode_J", "Ama.fields_R_complete", "Ama.fields_I_complete", "Ama.decode_CI", "Ama.decode_CADDI16SP", "Ama.decode_CLWSP", "Ama.decode_CSWSP", "Ama.decode_CADDI4SPN", "Ama.decode_CLS", "Ama.decode_CB", "Ama.decode_CBA", "Ama.decode_CA", "Ama.decode_CJ", "Ama.decode_CR"], "note": "all formats"},
{"property": "C06", "status": "proved", "theorems": ["Ama.branch_step", "Ama.jump_step", "Ama.misaligned_target_traps"], "note": "with hardware models: predictor answers a successor and both successors are fetchable"},
{"property": "C07", "status": "proved", "theorems": ["Ama.load_step"], "note": ""},
{"property": "C08", "status": "proved", "theorems": ["Ama.store_step"], "note": ""},
{"property": "C09", "status": "proved", "theorems": ["Ama.memory_history", "Ama.load_after_history", "Ama.runBus_no_ub"], "note": "histories of guest loads/stores of size 1, 2, 4 at arbitrary addresses, timer updates and UART polls"},
{"property": "C10", "status": "partial", "theorems": ["Ama.Precise.traps_precise_partial", "Ama.Precise.trap_never_retires", "Ama.exceptions_precise_partial", "Ama.Ex.jalr_illegal_writes_rd", "Ama.Precise.Ex.ro_write_writes_rd", "Ama.Precise.Ex.csr_f3_4_writes_rd"], "note": "every 32-bit and compressed word, every state with an aligned pc, every hardware model, interrupts included: one trap and nothing else, except the words of Imprecise, for which the code violates it (witnesses for JALR with funct3 != 0, read-only CSR writes, CSR funct3 4; the malformed branch and the reserved compressed words are witnessed under C17), see DESIGN.md"},
{"property": "C100", "status": "partial", "theorems": ["Ama.HwFetch.flow_fetches_partial", "Ama.HwFetch.ran_fetches", "Ama.HwFetch.step_fetches", "Ama.HwFetch.quiet_fetches", "Ama.HwFetch.int_fetches", "Ama.HwFetch.exc_fetches", "Ama.HwFetch.run_fetches", "Ama.HwFetch.run_fetch_count", "Ama.HwFetch.count_fetches"], "note": "Runs of any length through retired instructions, interrupts, exceptions, waiting and the step that reaches the step limit (which executes an instruction that is not counted). Left out of the runs: branches with an undefined funct3 (C53) and predictions of odd addresses."},
{"property": "C101", "status": "proved", "theorems": ["Ama.Dasm.line_reads", "Ama.Dasm.log_file", "Ama.Dasm.log_file_same", "Ama.Dasm.log_numbers", "Ama.Dasm.log_numbers_any", "Ama.SimdText.simd_flat"], "note": "For the file without the additions of log_hw_models, log_state and the callstack. The texts of traps are parameters without line breaks; those of SIMD lanes have none (simd_flat)."},
{"property": "C102", "status": "proved", "theorems": ["Ama.HwRefs.icache_references", "Ama.HwRefs.refs_fetches", "Ama.HwRefs.counts", "Ama.HwRefs.icache_references_flow_partial", "Ama.HwRefs.count_flow"], "note": "Builds without profilers, with a predictor; runs in which every step retires and no model fails (the predictor none fails at the first branch, C54). icache_references_flow_partial goes beyond the statement, to runs with interrupts, exceptions, waiting and a step limit as in C100."},
{"property": "C11", "status": "proved", "theorems": ["Ama.trapEntry_core", "Ama.env_calls_trap", "Ama.data_access_traps", "Ama.misaligned_target_traps"], "note": "mtval of misaligned data accesses is the memory offset, not the address"},
{"property": "C12", "status": "partial", "theorems": ["Ama.mret_step_partial", "Ama.mret_status_code", "Ama.Ex.mret_keeps_mie"], "note": "the code ORs MPIE into MIE: wrong when MIE=1 and MPIE=0 (witness)"},
{"property": "C13", "status": "proved", "theorems": ["Ama.trap_mret_resumes"], "note": ""},
{"property": "C14", "status": "proved", "theorems": ["Ama.interrupt_taken", "Ama.no_interrupt_executes"], "note": ""},
{"property": "C15", "status": "proved", "theorems": ["Ama.wfi_idle_step", "Ama.wfi_stalls", "Ama.wfi_time", "Ama.wfi_timer_wakes", "Ama.wfi_sleeps", "Ama.wfi_resumes"], "note": "multi-step statements are for builds without profilers; the wake-up bound assumes the timer does not wrap meanwhile"},
{"property": "C16", "status": "proved", "theorems": ["Ama.pc_aligned"], "note": "invariant of runs"},
{"property": "C17", "status": "partial", "theorems": ["Ama.illegal_raises_partial", "Ama.illegal_c_partial", "Ama.undefined_exec", "Ama.undefinedC_exec", "Ama.Ex.slli_any_upper", "Ama.Ex.scp_any_rs2", "Ama.Ex.bad_branch_skips_handler", "Ama.Ex.c_addi4spn0_writes", "Ama.Ex.c_zero_traps_twice", "Ama.Ex.c_lui0_writes", "Ama.Ex.c_shift32_executes", "Ama.Ex.c_lwsp0_executes", "Ama.Ex.jalr_illegal_writes_rd"], "note": "Every 32-bit word and halfword outside the listings raises illegal instruction with no other effect, except the classes Lax and LaxC, for which the property fails: the listed witnesses show the code executing such words or trapping with side effects."},
{"property": "C18", "status": "proved", "theorems": ["Ama.const_csr", "Ama.mpp_machine", "Ama.write_ro_traps", "Ama.mtvec_mepc_aligned"], "note": "constant CSRs, MPP, address legality over runs; RO write traps"},
{"property": "C19", "status": "proved", "theorems": ["Ama.csr_rmw", "Ama.csr_absent", "Ama.csr_reject_partial", "Ama.kind_table"], "note": "The address map with its write masks is a separate specification (Spec/Csr.lean). The step-level theorem covers all six forms, all addresses, rd = rs1, and states the effect on every CSR including the two lazily kept counters; unimplemented addresses trap with no effect. csr_reject_partial covers writes to read-only CSRs and the reserved funct3, where rd is written although the instruction traps."},
{"property": "C20", "status": "partial", "theorems": ["Ama.counter_step", "Ama.counter_history_partial", "Ama.counter_from_reset_partial", "Ama.csr_rmw", "Ama.Ex.funct3_4_loses_count"], "note": "Any history: without software writes the counters advance by exactly the retired instructions / steps; csr_rmw gives the value read and the value after a write of either half. Missing, because false: the reserved SYSTEM encoding funct3=4 with rs1\u22600 addressing a counter loses one count (witness)."},
{"property": "C21", "status": "proved", "theorems": ["Ama.user_counters"], "note": "All user-level counter addresses, all instruction forms, any state ready to execute."},
{"property": "C22", "status": "partial", "theorems": ["Ama.compressed_refines_partial", "Ama.encodeC_half", "Ama.ci_copcode", "Ama.Ex.c_ebreak_stops"], "note": "Every legal compressed instruction except C.EBREAK, for every state ready to execute it; accesses to devices are outside the specification. C.EBREAK stops the run instead of raising a breakpoint (negative witness)."},
{"property": "C23", "status": "partial", "theorems": ["Ama.inst_limit_partial", "Ama.step_limit_partial", "Ama.run_stopped", "Ama.stop_reasons", "Ama.Ex.step_limit_uncounted", "Ama.Ex.step_limit_minstret"], "note": "Both limits are exact for every program and N. The reported instruction count, pc and counters are right except at the step limit, where the last executed instruction is not counted: step_limit_uncounted and step_limit_minstret are concrete witnesses."},
{"property": "C24", "status": "proved", "theorems": ["Ama.tohost_stops", "Ama.tohost_only_by_csr", "Ama.stop_reasons", "Ama.run_stopped"], "note": ""},
{"property": "C25", "status": "partial", "theorems": ["Ama.step_trichotomy_partial", "Ama.outcomes_exclusive", "Ama.retired_le_steps", "Ama.Ex.step_limit_uncounted", "Ama.Ex.window_exit_uncounted"], "note": "Proved for every step except the two that end the run: the step at the step limit executes without being counted as retired, and the step at the end of the profiling window counts no step; both are shown by concrete witnesses."},
{"property": "C26", "status": "partial", "theorems": ["Ama.step_ub", "Ama.run_ub", "Ama.only_pair_ub", "Ama.no_ub_partial", "Ama.pair_x31_always", "Ama.srai_always", "Ama.Ex.ub_runs", "Ama.Ex.ub_runs_iso", "Ama.alu_strict"], "note": "the claim is false (ub_runs, ub_runs_iso). Proved instead: every undefined step of every run fetches past the end of memory or executes one of a closed list of instructions; the base RV32IM build never has undefined behaviour on x86 semantics"},
{"property": "C27", "status": "proved", "theorems": ["Ama.memory_map", "Ama.devices_disjoint", "Ama.trap_registers"], "note": "the code reports misaligned addresses relative to the device"},
{"property": "C28", "status": "proved", "theorems": ["Ama.load_isolation", "Ama.store_isolation"], "note": ""},
{"property": "C29", "status": "partial", "theorems": ["Ama.write_protected_run", "Ama.readonly_segment_never_changes_partial", "Ama.read_denied_aborts", "Ama.load_bytes_readable_partial", "Ama.nx_never_executes", "Ama.denied_access_aborts", "Ama.Ex.straddling_store", "Ama.Ex.straddling_fetch"], "note": "the code checks only the first byte of an access, so the claim is false for segments whose boundaries are not word aligned (straddling_store, straddling_fetch); proved for word-aligned boundaries over all runs; fetch side for builds without hardware models"},
{"property": "C30", "status": "proved", "theorems": ["Ama.mtime_history", "Ama.mtime_update", "Ama.ticks_bounded"], "note": "over access histories that do not store to mtime"},
{"property": "C31", "status": "proved", "theorems": ["Ama.mtime_update", "Ama.clockCore_mtip"], "note": ""},
{"property": "C32", "status": "proved", "theorems": ["Ama.uart_tx_history", "Ama.uart_store_ignored", "Ama.uart_streams_grow"], "note": ""},
{"property": "C33", "status": "proved", "theorems": ["Ama.uart_rx_history", "Ama.uart_rx_kept", "Ama.meip_is_rxValid", "Ama.rx_byte_is_last", "Ama.uart_streams_grow", "Ama.uart_rx_rate"], "note": ""},
{"property": "C34", "status": "proved", "theorems": ["Ama.simd_step", "Ama.simd_unique", "Ama.addsub_wrap", "Ama.addsub_sat", "Ama.hostOk_iff"], "note": "ADD/SUB/QADD/QSUB 16/8, all operands, lanes and signedness, both host readings; stepping the binutils encoding writes exactly the specified lanes to rd and nothing else"},
{"property": "C35", "status": "proved", "theorems": ["Ama.simd_step", "Ama.simd_unique", "Ama.minmax_lanes", "Ama.slli_lanes", "Ama.shr_lanes"], "note": "MIN/MAX/SLLI/SRLI/SRAI per lane, all operands and immediates"},
{"property": "C36", "status": "partial", "theorems": ["Ama.simd_step_host", "Ama.simd_pair_step_host", "Ama.simd_step_partial", "Ama.simd_pair_step_partial", "Ama.mul_lanes", "Ama.mulh_lanes", "Ama.wmul_lanes", "Ama.mul_strict", "Ama.wmul_strict", "Ama.mulh16u_ub", "Ama.wmul16u_ub"], "note": "All operands with two's complement int arithmetic. With signed overflow undefined: undefined exactly if a product overflows an int (mul_strict, wmul_strict), and the same result as with wrapping otherwise, also when stepped (simd_step_host, simd_pair_step_host). The full statement is false there: MULH16U and WMUL16U of 0xffff*0xffff"},
{"property": "C37", "status": "partial", "theorems": ["Ama.simd_step_host", "Ama.simd_step_partial", "Ama.dot_lanes", "Ama.dot_strict", "Ama.dot16_ub", "Ama.dot16u_ub"], "note": "All widths and operands with wrapping int arithmetic. With signed overflow undefined: undefined exactly if a product or a partial sum overflows an int (dot_strict), and the same result otherwise, also when stepped (simd_step_host). The full statement is false there: DOT16 and DOT16U of concrete operands"},
{"property": "C38", "status": "partial", "theorems": ["Ama.simd_step", "Ama.simd_pair_step_host", "Ama.simd_pair_step_partial", "Ama.widen_lanes", "Ama.widen_strict", "Ama.narrow_lanes", "Ama.qnarrow_lanes", "Ama.narrow_widen", "Ama.widen8_ub", "Ama.widen16u_ub"], "note": "Narrowing proved in both readings; widening proved for all operands on a host with arithmetic left shift. When shifting negative values or set bits out is undefined (C++17): undefined exactly if an element is negative or a set bit is shifted out (widen_strict), and the same result otherwise, also when stepped (simd_pair_step_host); the full statement is false there"},
{"property": "C39", "status": "proved", "theorems": ["Ama.simd_step", "Ama.simd_pair_step_partial", "Ama.txp_lanes", "Ama.txp_involution", "Ama.dup_lanes", "Ama.vins_lanes", "Ama.vext_value", "Ama.vext_vins", "Ama.vext_vins_other", "Ama.simd_unique"], "note": "TXP involution, DUP, VINS, VEXT lane laws for all operands, indices and widths (register pair x31 is the subject of C40)"},
{"property": "C40", "status": "partial", "theorems": ["Ama.simd_pair_step_partial", "Ama.pair_x31_ub"], "note": "rd 0..30 as stated; for rd = 31 the property is false: the code raises the exception, then writes x31 and indexes past the register file (pair_x31_ub)"},
{"property": "C41", "status": "proved", "theorems": ["Ama.Cache.cache_is_lru", "Ama.Cache.cache_contents", "Ama.Cache.perf_runs"], "note": "Refinement of the cache model to recency lists (Spec.Lru), every request sequence, memory, set and way count."},
{"property": "C42", "status": "proved", "theorems": ["Ama.Cache.cache_accounting", "Ama.Cache.nothing_counted_off"], "note": "Counters are 64-bit in the code and naturals in the model."},
{"property": "C43", "status": "partial", "theorems": ["Ama.Cache.locked_stays", "Ama.Cache.locked_hits", "Ama.Cache.locks_bounded", "Ama.Cache.access_allocates", "Ama.Cache.lcl_status_partial", "Ama.Cache.rel_status_partial", "Ama.Cache.rel_absent", "Ama.Cache.lcl_again_fails", "Ama.Cache.rel_absent_stale"], "note": "Residency, bound and allocation proved. Status reports fail in two cases, witnessed: locking a locked line when the set is full reports failure; releasing an absent line reports the previous status."},
{"property": "C44", "status": "partial", "theorems": ["Ama.Cache.dcache_coherent_partial", "Ama.Cache.rel_first_uninit", "Ama.Cache.fetch_past_line", "Ama.MMI.icache_coherent_partial", "Ama.MMI.self_modify_mismatch"], "note": "Data cache coherent in every history whose first scratchpad request is not a release of an absent line (that reads an uninitialised status). Instruction cache coherent only while cached code is not overwritten; the mismatch is witnessed."},
{"property": "C45", "status": "proved", "theorems": ["Ama.Cache.dirty_iff_written", "Ama.Cache.writeback_exact", "Ama.Cache.writethrough_exact", "Ama.Cache.cache_accounting"], "note": ""},
{"property": "C46", "status": "partial", "theorems": ["Ama.Cache.more_ways_hit_partial", "Ama.Cache.more_ways_misses_partial", "Ama.Cache.noUpdate_not_monotone"], "note": "True for the update-on-insert policy; false for no_update, with a witness trace."},
{"property": "C47", "status": "partial", "theorems": ["Ama.Cache.roi_passive", "Ama.Cache.roi_counts_closed", "Ama.Cache.roi_counts_partial", "Ama.Cache.roi_end_counted"], "note": "Passivity proved. The region counted is [start, start+size] with the end included, witnessed."},
{"property": "C48", "status": "proved", "theorems": ["Ama.Bp.tables_in_range", "Ama.Bp.runs_through", "Ama.Bp.counters_step", "Ama.Bp.interface_in_range"], "note": "Every accepted configuration (combined nested to any depth), every run of branches and profiling switches: no out-of-range access or shift; tables have the configured sizes; counters in range; one counter per table moves by one, saturating, toward the outcome. The only other outcome is the read of an unset prediction: an ideal component of a combined predictor, or none while profiling (Ex.combined_ideal_uninit, Ex.none_counts_unset). Constructor UB outside the accepted set: Ex.gselect_wrap_shift, Ex.fold_zero_bits."},
{"property": "C49", "status": "partial", "theorems": ["Ama.Bp.prediction_is_successor_partial", "Ama.Bp.predict_successor", "Ama.Bp.Ex.combined_none_zero", "Ama.Bp.Ex.combined_ideal_uninit"], "note": "Proved for every predictor tree without none/ideal. False for a combined predictor with a none component (answers 0) and undefined with an ideal component; both accepted by the command line."},
{"property": "C50", "status": "partial", "theorems": ["Ama.Bp.ideal_always_right", "Ama.Bp.static_follows_rule", "Ama.Bp.none_never_right_partial", "Ama.Bp.Ex.none_counts_unset"], "note": "ideal and static proved. none: reports every branch wrong, but counting while profiling compares with a member it never sets (undefined), witnessed."},
{"property": "C51", "status": "partial", "theorems": ["Ama.Bp.counter_refines", "Ama.Bp.learns_taken", "Ama.Bp.learns_notTaken", "Ama.Bp.tolerates_taken", "Ama.Bp.tolerates_notTaken_partial", "Ama.Bp.bimodal_entry", "Ama.Bp.Ex.two_bit_forgets"], "note": "Learning proved for all five table-based classes, all widths. Tolerance proved on the taken side for n>=2, on the not-taken side for n>=3; false on the not-taken side for n=2 (witness)."},
{"property": "C52", "status": "proved", "theorems": ["Ama.Bp.combined_answer", "Ama.Bp.combined_step", "Ama.Bp.selector_refines", "Ama.Bp.follows_first", "Ama.Bp.follows_second"], "note": "combined_answer for any components. The others for components that are not ideal (an ideal component reads an unset prediction, Ex.combined_ideal_uninit)."},
{"property": "C53", "status": "partial", "theorems": ["Ama.HwInd.hw_run_matches_plain_partial", "Ama.HwInd.hw_models_agree_partial", "Ama.HwInd.bp_predicts", "Ama.HwInd.malformed_branch_steers", "Ama.HwInd.speculation_aborts_program", "Ama.HwInd.no_predictor_uninit", "Ama.HwInd.scp_answer_differs"], "note": "Every completed run of a build with any caches/divider and any predictor proposing one of the successors (or the ideal one, or none) is reproduced architecturally by the plain build, for all programs and step counts, unless it executes an answered scratchpad hint or a malformed branch; two builds therefore agree. bp_predicts shows the simulator predictors meet the hypothesis. The full claim is false of the code: malformed branch replaces the first handler instruction, a speculative fetch outside executable memory aborts, and without a predictor a branch to 0 reads an unset member (all witnessed)."},
{"property": "C54", "status": "partial", "theorems": ["Ama.Bp.stats_conserved_partial", "Ama.Bp.app_records", "Ama.Bp.none_run", "Ama.Bp.Ex.none_counts_unset", "Ama.Bp.Ex.run_all_uninit"], "note": "All accepted configurations, all runs and profiling schedules that go through. The claim is false for none, which compares with an unset prediction at the first branch while profiling (none_counts_unset); its runs that go through have no such branch (none_run)."},
{"property": "C55", "status": "proved", "theorems": ["Ama.Bp.pattern_lossless", "Ama.Bp.pattern_injective", "Ama.Bp.written_pattern_reads_back"], "note": ""},
{"property": "C56", "status": "proved", "theorems": ["Ama.Div.stats_refine", "Ama.Div.counted_once", "Ama.Div.classify_correct", "Ama.Div.class_unique", "Ama.Div.commonBits_correct"], "note": "All operand sequences, profiling schedules and entry counts from 1 to 2^32-1. The bit count is within 1..31 (stronger than 1..32)."},
{"property": "C57", "status": "proved", "theorems": ["Ama.Prof.lines_exact", "Ama.Prof.breakdown_sums", "Ama.Prof.total_exact", "Ama.Prof.rest_exact"], "note": "For every stream of calls and activations: each line exact, breakdowns and totals add up, final assertion holds, rest never wraps. Builds without RV32C need no compressed call (witnessed)."},
{"property": "C58", "status": "partial", "theorems": ["Ama.Perf.callstack_never_empty", "Ama.Perf.callstack_nonempty", "Ama.Perf.samples_conserved_partial", "Ama.Perf.reported_total_partial", "Ama.Perf.trap_then_jump_doubles", "Ama.Perf.call_leaks_in", "Ama.Perf.call_leaks_out", "Ama.Perf.limit_at_call_doubles"], "note": "Never empty: proved for all sequences. Conservation proved for clients with at most one control transfer per finished instruction and windows not opened or closed right after one; fails otherwise (four witnesses)."},
{"property": "C59", "status": "partial", "theorems": ["Ama.window_partial", "Ama.exit_on_stop", "Ama.profiled_count", "Ama.restart_closes", "Ama.stall_counts"], "note": "Window history proved for all runs and match numbers up to 2^32 start points, exit-on-stop and profiled instruction count proved. Fails for a repeated start hint in single match mode and while stalled at the start pc (both witnessed)."},
{"property": "C60", "status": "partial", "theorems": ["Ama.Prof.attack_ends", "Ama.Prof.pair_counted", "Ama.Prof.counted_iff_pair_partial", "Ama.Prof.mul_counted", "Ama.Prof.sll_counted", "Ama.Prof.branch_counted", "Ama.Prof.jalr_counted"], "note": "Termination and completeness proved for all words. \"Counted only if\" is false: mul, 32-bit words whose bits look like c.add, and c.jalr are counted (witnesses); the exact equivalence is proved under Clear."},
{"property": "C61", "status": "proved", "theorems": ["Ama.Prof.usage_exact", "Ama.Prof.usage_mono"], "note": "All histories of stack pointer values."},
{"property": "C62", "status": "partial", "theorems": ["Ama.elf_image", "Ama.elf_valid", "Ama.elf_regions", "Ama.elf_no_ub_partial", "Ama.bin_image", "Ama.Ex.elf_overflow_ub", "Ama.Ex.elf_empty_end_ub"], "note": "image, permission table and acceptance proved for all tables; the no-out-of-bounds part is false for a segment whose end overflows 64 bits and for an empty segment at the end of RAM (witnesses)"},
{"property": "C63", "status": "partial", "theorems": ["Ama.retired_logged", "Ama.unretired_at_most_one", "Ama.retired_named", "Ama.retired_named_c_partial", "Ama.bnez_miscounted", "Ama.lui_hint_miscounted", "Ama.retired_named_csr", "Ama.retired_named_x1", "Ama.retired_named_x2", "Ama.retired_named_scp", "Ama.run_profiled"], "note": "Exactly one entry per retired instruction and the naming of all RV32IM, Zbb, CSR, SIMD and cache-hint instructions are proved; naming of compressed instructions is proved but for two cases in which the code uses another line (a C.BNEZ not taken is counted as C.BEQZ, C.LUI x0 as C.NOP), both proved as disagreements."},
{"property": "C64", "status": "proved", "theorems": ["Ama.Perf.top_is_current"], "note": "For every state with a well-formed map and nonempty stack (both proved for every run)."},
{"property": "C65", "status": "partial", "theorems": ["Ama.Perf.callstack_nested_partial", "Ama.Perf.folded_nested_partial", "Ama.Perf.recursion_kept", "Ama.Perf.repair_misattributes"], "note": "Proved for calls, tail calls, branches between functions and returns without direct recursion; recursion and repaired divergences fail (witnessed)."},
{"property": "C66", "status": "proved", "theorems": ["Ama.Bp.predictor_refines"], "note": "every accepted configuration without none and ideal; refinement to a specification over the list of past branches"},
{"property": "C67", "status": "proved", "theorems": ["Ama.Bp.learns_pattern"], "note": "bound history + period * largest counter value"},
{"property": "C68", "status": "partial", "theorems": ["Ama.Dasm.log_reassembles_partial", "Ama.Dasm.log_injective_partial", "Ama.Dasm.log_stream_clean", "Ama.Dasm.log_fence_ambiguous", "Ama.Dasm.log_c_lui_hint"], "note": "Proved for every instruction word whose operands are all printed, against an independent assembler. The full claim is false: fences with different operands print alike, the hint c.lui x0 prints as c.nop, and unused rs2 bits of dup, scp, vins and vext are not printed. The wording of traps and the SIMD lane dump are parameters."},
{"property": "C69", "status": "partial", "theorems": ["Ama.Dasm.log_notes_registers", "Ama.Dasm.log_notes_load", "Ama.Dasm.log_notes_store_partial", "Ama.Dasm.log_notes_c_store_partial", "Ama.Dasm.log_notes_c_lwsp_partial", "Ama.Dasm.log_notes_c_lw_partial", "Ama.Dasm.log_notes_csr_partial", "Ama.Dasm.log_right", "Ama.Dasm.note_value", "Ama.Dasm.log_store_note_false", "Ama.Dasm.log_c_lwsp_note_false", "Ama.Dasm.log_c_lw_note_missing"], "note": "Register and load notes proved for all instructions and histories. Store and CSR notes need the stream to adjust right, which holds as long as no instruction with destination x0 and a hexadecimal immediate was executed; after one, the full claim is false (a stored 1 is logged as 0x10000000). c.lwsp into sp notes a wrong address, c.lw omits it if bits 11:7 are 0."},
{"property": "C70", "status": "partial", "theorems": ["Ama.Dasm.log_trap_only_partial", "Ama.Dasm.log_trap_claims_store"], "note": "Proved for loads, stores, branches, ecall and ebreak. The full claim is false: a store of undefined width traps and its record claims a memory update."},
{"property": "C71", "status": "proved", "theorems": ["Ama.Dasm.log_step_same", "Ama.Dasm.log_run_same"], "note": "For the modelled text; the text is computed from the state and never written back."},
{"property": "C72", "status": "partial", "theorems": ["Ama.ProfRf.usage_step_partial", "Ama.ProfRf.usage_step_any", "Ama.ProfRf.usage_run_partial", "Ama.ProfRf.usage_shift_amount", "Ama.ProfRf.usage_vins", "Ama.ProfRf.usage_lui_hint", "Ama.ProfRf.Ex.usage_trap_counted"], "note": "Proved for every instruction but SIMD shifts, VINS and the C.LUI hint, for single steps and whole runs. The full claim is false: a SIMD shift amount is counted as a register, VINS does not count its destination as a source, and a jump that traps on its target is counted although it does not retire."},
{"property": "C73", "status": "partial", "theorems": ["Ama.ProfRf.trace_step", "Ama.ProfRf.trace_idle", "Ama.ProfRf.trace_run_partial", "Ama.ProfRf.Ex.trace_stale", "Ama.ProfRf.Ex.trace_lui_zero"], "note": "Proved for runs without traps. The full claim is false: after a jump that traps, the next entry carries its opcode and destination, and a zero written by LUI, AUIPC, a jump, a CSR or cache instruction is not flagged."},
{"property": "C74", "status": "partial", "theorems": ["Ama.ProfTrace.trace_transparent", "Ama.ProfTrace.trace_step_partial", "Ama.ProfTrace.trace_only", "Ama.ProfTrace.trace_access_partial", "Ama.ProfTrace.trace_run_partial", "Ama.ProfTrace.trace_run_access_partial", "Ama.ProfTrace.Ex.trace_comp_access", "Ama.ProfTrace.Ex.trace_next_branch", "Ama.ProfTrace.Ex.trace_stale_window", "Ama.ProfTrace.Ex.trace_stale_trap"], "note": "Number, order and all fields but the access are proved for all runs, with the transfer flag missing for compressed branches to the next instruction (recorded as not taken). Accesses are proved for uncompressed loads and stores in runs where none is executed outside the window or traps. The full claim is false: compressed loads and stores show no access, and an access made before the window opens, or attempted by an instruction that trapped, is shown on the next entry."},
{"property": "C75", "status": "partial", "theorems": ["Ama.ProfTrace.peak_run_partial", "Ama.ProfTrace.Ex.peak_full"], "note": "Proved for all runs, for stack pointers above the first byte of main memory. The full claim is false: a stack pointer at the start of main memory (the stack completely full) is ignored."},
{"property": "C76", "status": "partial", "theorems": ["Ama.ProfTrace.stack_step_code", "Ama.ProfTrace.stack_step_partial", "Ama.ProfTrace.stack_other_partial", "Ama.ProfTrace.stack_run_partial", "Ama.ProfTrace.Ex.stack_at_sp", "Ama.ProfTrace.Ex.stack_load_sp", "Ama.ProfTrace.Ex.stack_undefined"], "note": "Proved but for accesses at the stack pointer itself, above main memory, and loads into the stack pointer. The full claim is false: an access at the stack pointer is not counted, lw sp is compared with the loaded value, and a store of undefined width is counted though it traps."},
{"property": "C77", "status": "partial", "theorems": ["Ama.PerfCore.calls_transparent", "Ama.PerfCore.events_step", "Ama.PerfCore.events_other", "Ama.PerfCore.events_run_partial", "Ama.PerfCore.trap_counted", "Ama.PerfCore.undefined_store_counted", "Ama.PerfCore.undefined_simd_counted", "Ama.PerfCore.trap_jump_doubled", "Ama.PerfCore.window_call_counted", "Ama.PerfCore.last_call_dropped", "Ama.PerfCore.limit_doubled"], "note": "Recording is proved per step for every retired instruction; the reported totals for all runs without traps that do not reach the step limit, with windows that do not switch right after a control transfer. The full claim is false: trapping instructions count as retired, and transfers at traps, window edges, the end of the run and the step limit are doubled, leaked or dropped."},
{"property": "C78", "status": "partial", "theorems": ["Ama.Finish.report_verdict_partial", "Ama.Finish.run_verdict", "Ama.Finish.early_exit_hides", "Ama.Finish.limit_reported_failed"], "note": "Proved for every state whose run was ended by the program and, from reset, for every program of builds without profilers. The full claim is false: the early-exit option overwrites tohost of programs that ended normally, and a limit stop is reported as a failure of test 0."},
{"property": "C79", "status": "partial", "theorems": ["Ama.Finish.dump_exact_partial", "Ama.Finish.dump_endless", "Ama.Finish.dump_tail", "Ama.Finish.dump_nowhere", "Ama.Finish.dump_device", "Ama.Finish.dump_unreadable", "Ama.Finish.dump_counted", "Ama.Finish.no_dump", "Ama.Finish.dump_made"], "note": "Proved for readable word-multiple regions of main memory. The full claim is false: trailing bytes are dropped, undefined addresses trap, device reads have effects, unreadable segments abort, a region ending at the top of the address space never ends, and the dump is counted by the data cache."},
{"property": "C80", "status": "partial", "theorems": ["Ama.Args.numeric_option_partial", "Ama.Args.stoul_sound", "Ama.Args.no_digit_refused", "Ama.Args.wraps_8", "Ama.Args.wraps_32", "Ama.Args.overflow_uncaught", "Ama.Args.trailing_text", "Ama.Args.negative", "Ama.Args.space_skipped"], "note": "Proved for every numeral that fits; what is accepted is characterised for every text. The full claim is false: numbers that do not fit are wrapped or end the simulator by an uncaught exception, trailing text is dropped and negative numbers are accepted."},
{"property": "C81", "status": "proved", "theorems": ["Ama.Args.resolve_iff", "Ama.Args.names_distinct", "Ama.Args.resolveList_iff", "Ama.Args.resolveList_set", "Ama.Args.events_accepted", "Ama.Args.help_exact"], "note": "The cache policy tables are not listed in the model; they go through the same functions."},
{"property": "C82", "status": "partial", "theorems": ["Ama.Args.predictor_described_partial", "Ama.Args.pc_bits_wrap"], "note": "Proved for all options whose numbers fit 8 bits; larger ones silently build a different predictor."},
{"property": "C83", "status": "partial", "theorems": ["Ama.HwCalls.hw_step", "Ama.HwCalls.hw_limit", "Ama.HwCalls.hw_malformed", "Ama.HwCalls.hw_other_partial", "Ama.HwCalls.hw_run_partial", "Ama.HwCalls.hwrun_total", "Ama.HwCalls.hwrun_reset", "Ama.HwCalls.Ex.malformed_branch_told", "Ama.HwCalls.Ex.limit_told"], "note": "What the models are told is proved exactly for every run from reset. The claim itself is false: a word with the branch opcode and an undefined condition is shown to the predictor although it traps, and the instruction that hits the step limit is shown although it is not counted; the run theorem lists both, with exactly what they tell."},
{"property": "C84", "status": "partial", "theorems": ["Ama.HwReal.divider_stats_partial", "Ama.HwReal.runs_total"], "note": "for every run from reset in which the models do not fail (C87), with profilers or without (then the statistics are on throughout); the claim fails at the step limit, where the last instruction is counted by the models but does not retire (C83)"},
{"property": "C85", "status": "partial", "theorems": ["Ama.HwReal.dcache_stats_partial", "Ama.HwReal.runs_total"], "note": "for every run from reset in which the models do not fail (C87), with profilers or without (then the statistics are on throughout); the claim fails at the step limit, where the last instruction is counted by the models but does not retire (C83), and for the memory dump at the end of a run"},
{"property": "C86", "status": "partial", "theorems": ["Ama.HwReal.predictor_stats_partial", "Ama.HwReal.runs_total"], "note": "for every run from reset in which the models do not fail (C87), with profilers or without (then the statistics are on throughout); the claim fails for malformed branches and at the step limit (C83)"},
{"property": "C87", "status": "partial", "theorems": ["Ama.HwReal.caches_go_through_partial", "Ama.HwReal.tags_go_through_partial", "Ama.HwReal.logged_total", "Ama.HwReal.Ex.own_code_throws", "Ama.HwReal.Ex.crossing_fetch_undefined", "Ama.HwReal.Ex.early_release_undefined"], "note": "holds for every run from reset without self-modified lines, line-crossing fetches and early releases when the caches hold data, without early releases when they hold tags; each exception fails by a witness"},
{"property": "C88", "status": "partial", "theorems": ["Ama.Sparsity.sparsity_step_partial", "Ama.Sparsity.sparsity_run_partial", "Ama.Sparsity.sparsity_step_any", "Ama.Sparsity.sparsity_caddi", "Ama.Sparsity.sparsity_calu", "Ama.Sparsity.sparsity_cadd", "Ama.Sparsity.sparsity_srai", "Ama.Sparsity.Ex.sparsity_csub_witness", "Ama.Sparsity.Ex.sparsity_caddi_witness", "Ama.Sparsity.Ex.sparsity_srai_witness", "Ama.Sparsity.Ex.sparsity_trap", "Ama.Sparsity.Ex.sparsity_load_x0"], "note": "fails for C.ADDI, C.AND/OR/XOR/SUB, C.ADD, SRAI by zero, stores that trap and loads to x0, each with a theorem or witness; holds for all other encodings"},
{"property": "C89", "status": "partial", "theorems": ["Ama.Bp.branches_csv_partial", "Ama.Bp.credited", "Ama.Bp.Ex.run_all_uninit", "Ama.Bp.CsvEx.predefined_v3_not_btfn"], "note": "every configuration without none, for which the report contains an unset value (run_all_uninit): the predefined list of the run-all option contains none; percentages are an unknown function of the two counts; runs of fewer than 2^32 events"},
{"property": "C90", "status": "partial", "theorems": ["Ama.HwStats.hw_stats_reads", "Ama.HwStats.hw_stats_rates", "Ama.HwStats.names_plain", "Ama.HwStats.icache_stats", "Ama.HwStats.extremes", "Ama.HwStats.run_insts", "Ama.HwStats.hw_stats_run_partial", "Ama.HwRefs.icache_references"], "note": "the digits of computed rates are unknown functions of the two counts; the number of instruction-cache references is tied to the run without profilers only (C102); with them, hits and misses add up to the references and memory traffic is a line per miss (icache_stats); for every run from reset (runs_total)"},
{"property": "C91", "status": "partial", "theorems": ["Ama.HwSize.bp_size", "Ama.HwSize.bp_size_up_partial", "Ama.HwSize.cache_sizes", "Ama.HwSize.plus_one", "Ama.HwSize.ages_fit_partial", "Ama.HwSize.divider_size", "Ama.HwSize.Ex.size_rounded_down", "Ama.HwSize.Ex.size_zero", "Ama.HwSize.Ex.size_wraps", "Ama.HwSize.Ex.age_does_not_fit", "Ama.HwSize.Ex.tags_exceed", "Ama.HwSize.Ex.divider_rounded_down", "Ama.HwSize.Ex.divider_wraps"], "note": "what is reported is proved for every accepted configuration up to 32-bit overflow; it is not the rounded-up size for all (size_rounded_down is a predefined predictor), tags and flags may be one byte over, ages are undercounted for ways that are not a power of two, the divider rounds down"},
{"property": "C92", "status": "proved", "theorems": ["Ama.Prof.profile_reads", "Ama.Prof.profile_counts", "Ama.run_profile_json"], "note": "Reports are those of the core to the profiler; which they are for each instruction is C63."},
{"property": "C93", "status": "partial", "theorems": ["Ama.ProfBin.trace_file", "Ama.ProfBin.trace_file_run_partial", "Ama.ProfBin.access_code", "Ama.ProfBin.rf_file", "Ama.ProfBin.rf_file_run_partial", "Ama.ProfBin.usage_file", "Ama.ProfBin.Ex.padding_open", "Ama.ProfBin.Ex.hint_name", "Ama.ProfBin.Ex.stale_row"], "note": "The files read back as the entries made, for all entries. The entries themselves fall short of the claim as in C73 and C74 (stale fields after traps, zero flags, compressed accesses); two names differ between profile and script; padding bytes are open. The hardware status fields are read back, but which status they show is not modelled."},
{"property": "C94", "status": "partial", "theorems": ["Ama.Main.options_reach", "Ama.Main.options_accepted", "Ama.Main.option_alone", "Ama.Main.options_documented", "Ama.Main.active_predictor", "Ama.Main.path_needed", "Ama.Main.path_suffices", "Ama.Main.looked_assigned_partial", "Ama.Main.rf_names_unset", "Ama.Main.prof_show_unset", "Ama.Main.status_run", "Ama.Main.Ex.documented_events_refused"], "note": "The options part holds in every build. Two settings are read without being assigned in some builds (rf_names in the default build), and the exit status does not tell whether the program passed. Splitting the command line (cxxopts) is not modelled."},
{"property": "C95", "status": "partial", "theorems": ["Ama.OutDir.out_dir_name", "Ama.OutDir.out_dir_distinct_partial", "Ama.OutDir.same_out_dir", "Ama.OutDir.gen_spec", "Ama.OutDir.files_asked", "Ama.OutDir.config_events", "Ama.OutDir.after_run_partial", "Ama.OutDir.Ex.stale_trace"], "note": "Name and files written as documented. Directories are distinct only for names without underscores, and are not cleared: both are false in general, with witnesses."},
{"property": "C96", "status": "proved", "theorems": ["Ama.Perf.folded_reads", "Ama.Perf.saved_stacks", "Ama.Perf.folded_totals", "Ama.Perf.frame_is_symbol", "Ama.Perf.twins_merge", "Ama.Perf.recursion_exceeds"], "note": "Two consequences of the format have witnesses: functions of one name are merged, and the script counts recursive functions once per frame."},
{"property": "C97", "status": "partial", "theorems": ["Ama.Report.state_reads", "Ama.Report.csr_sorted", "Ama.Report.check_reads", "Ama.Report.judged", "Ama.Report.judged_partial", "Ama.Report.printed_pass", "Ama.Report.Ex.false_early"], "note": "The texts read back in full. The verdict of the scripts is right unless the program leaves 0xf0000000 in tohost or prints the line itself: false in general, with witnesses."},
{"property": "C98", "status": "partial", "theorems": ["Ama.SimdText.simd_log_partial", "Ama.SimdText.simd_pair_log_partial", "Ama.SimdText.record_ends", "Ama.SimdText.log_calm", "Ama.SimdText.log_silent", "Ama.SimdText.add_unwrapped", "Ama.SimdText.mul_unsigned", "Ama.SimdText.wmul_signed", "Ama.SimdText.srai_source", "Ama.SimdText.widen_unwrapped", "Ama.SimdText.vext_source"], "note": "Every number denotes its element modulo the element width, and most are exact (table X1.exact / X2.exact). The sign or wrapping of the rest is wrong in the log itself, with witnesses. Undefined host arithmetic is excluded as in C36-C38."},
{"property": "C99", "status": "proved", "theorems": ["Ama.Prof.figures_exact", "Ama.Prof.run_figures", "Ama.Prof.dropped_names"], "note": "For every stream and every run from reset: each figure equals the number of entries whose printed name is of the class. The classes are given by names, independently of the lists of opcodes in the code. The percentages printed beside the figures are not modelled."}
]}
