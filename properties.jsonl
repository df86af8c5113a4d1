{"id": "C01", "title": "x0 always reads zero", "statement": "From reset onwards, after any number of simulator steps of any program (including trapping, SIMD register-pair and compressed instructions), reading register x0 yields 0.", "quantifier": "all program images, all register/CSR contents reachable from reset, all build configurations, any number of steps", "why_tests_cant": "A test observes x0 after finitely many instructions of one program; some writeback path that bypasses the guard would only show for a particular instruction with rd=0.", "anchors": ["src/core.h:write_rf", "src/core.h:write_rf_pair", "src/core_exec_c.cpp"]}
{"id": "C02", "title": "RV32I computational instructions match the ISA", "statement": "Stepping a correctly encoded RV32I register-register, register-immediate, LUI or AUIPC instruction writes to rd exactly the value the RISC-V unprivileged manual defines for the source values, advances pc by 4, and changes no other register, memory byte or CSR.", "quantifier": "all such instructions, all register indices and immediates, all 2^64 operand pairs, all pc values, all machine states", "why_tests_cant": "2^32 x 2^32 operand pairs times 32^3 register choices per opcode cannot be enumerated; shift-amount and sign-extension corner cases hide in the tail.", "anchors": ["src/core_exec_i_arith.cpp", "src/core.cpp:d_alu_reg", "src/core.cpp:d_alu_imm", "src/inst_parser.h"]}
{"id": "C03", "title": "M extension matches the ISA including special cases", "statement": "MUL/MULH/MULHSU/MULHU/DIV/DIVU/REM/REMU write the mathematically specified result for every operand pair: high/low halves of the exact product; quotient rounded toward zero; remainder with the sign of the dividend; division by zero gives all-ones/dividend; signed overflow gives INT_MIN/0; and quotient*divisor+remainder = dividend modulo 2^32 in every case.", "quantifier": "all operand pairs in 2^32 x 2^32, all eight operations", "why_tests_cant": "The operand space is 2^64; tests sample corner values only.", "anchors": ["src/core_exec_m.cpp"]}
{"id": "C04", "title": "Zbb min/max match the ISA", "statement": "MIN/MAX/MINU/MAXU return the smaller/larger operand under the signed/unsigned order.", "quantifier": "all operand pairs", "why_tests_cant": "2^64 operand pairs.", "anchors": ["src/core_exec_b.cpp", "src/core.cpp:d_alu_reg"]}
{"id": "C05", "title": "Instruction field and immediate decoding inverts encoding", "statement": "For every 32-bit instruction format (R/I/S/B/U/J) and each compressed format, decoding the fields and immediate of an encoded instruction gives back exactly the register numbers and the sign-extended immediate that were encoded.", "quantifier": "all register indices and all representable immediates of each format", "why_tests_cant": "Immediate scrambling errors affect single bits of some immediates only; exhaustive round-trip over all formats times registers is out of reach of unit tests.", "anchors": ["src/inst_parser.h", "src/defines.h"]}
{"id": "C06", "title": "Branches and jumps transfer control as specified", "statement": "A conditional branch continues at pc+offset iff its comparison holds and at pc+4 otherwise; JAL/JALR continue at the (bit-0 cleared, for JALR) target and write pc+4 to rd, with JALR reading rs1 before rd is written; a misaligned target raises an instruction-address-misaligned exception and leaves rd unchanged.", "quantifier": "all branch/jump instructions, offsets, operand values, pc values, rd=rs1 aliasing", "why_tests_cant": "Operand, pc and offset space is unbounded in practice, and aliasing/alignment interact.", "anchors": ["src/core_exec_i_branch_jump.cpp", "src/core.cpp:d_branch", "src/core.cpp:d_jal", "src/core.cpp:d_jalr"]}
{"id": "C07", "title": "Loads return the addressed bytes with the right extension", "statement": "LB/LH/LW/LBU/LHU from an aligned mapped RAM address write to rd the little-endian value of the addressed bytes, sign- or zero-extended to 32 bits, and leave every other register and all memory unchanged.", "quantifier": "all addresses in RAM, all memory contents, all five loads, all register choices", "why_tests_cant": "Memory contents and addresses are unbounded for testing purposes.", "anchors": ["src/core_exec_i_mem.cpp", "src/core.cpp:d_load", "src/memory.cpp:rd", "src/devices/dev.cpp"]}
{"id": "C08", "title": "Stores update exactly the addressed bytes", "statement": "SB/SH/SW to an aligned writable RAM address replace exactly the 1/2/4 addressed bytes by the low bytes of rs2 in little-endian order; all other bytes, registers and devices are unchanged.", "quantifier": "all addresses, data, store sizes, memory contents", "why_tests_cant": "The frame condition ranges over every other byte of memory.", "anchors": ["src/core_exec_i_mem.cpp", "src/core.cpp:d_store", "src/memory.cpp:wr", "src/devices/dev.cpp"]}
{"id": "C09", "title": "Memory behaves as a byte array over any access history", "statement": "After any sequence of loads and stores of mixed sizes, a load returns for each byte the value of the most recent store covering that byte (or the initial image).", "quantifier": "all finite sequences of accesses with any mixture of sizes and addresses", "why_tests_cant": "The property is about unbounded histories with overlapping mixed-size accesses.", "anchors": ["src/devices/dev.cpp", "src/devices/main_memory.cpp:rd", "src/devices/main_memory.cpp:wr"]}
{"id": "C10", "title": "Exceptions are precise", "statement": "An instruction that raises a synchronous exception has no architectural effect other than trap entry: no register is written, no memory byte or device changes, and exactly one trap is taken (mepc is the pc of that instruction).", "quantifier": "all instruction words and all machine states", "why_tests_cant": "Every one of 2^32 instruction words in every state must be considered; the code reports traps by side effect and keeps executing.", "anchors": ["src/trap.cpp", "src/core_exec_trap.cpp:trap_state_update", "src/core.cpp", "src/core_exec_c.cpp"]}
{"id": "C11", "title": "Trap entry saves exactly the required state", "statement": "On every trap: mepc is the interrupted/faulting pc, mcause is the architectural cause code with the interrupt bit for interrupts, mtval is the faulting address or instruction word, MPIE takes the old MIE, MIE becomes 0, MPP stays machine mode, and execution continues at mtvec; no other CSR changes.", "quantifier": "all trap causes, all machine states, all mtvec/mstatus values", "why_tests_cant": "Causes x states x CSR values is unbounded.", "anchors": ["src/core_exec_trap.cpp", "src/trap.cpp", "src/trap.h"]}
{"id": "C12", "title": "MRET restores interrupt-enable and pc", "statement": "MRET sets pc to mepc, MIE to the previous MPIE, MPIE to 1, and changes nothing else.", "quantifier": "all machine states including MIE=1 with MPIE=0", "why_tests_cant": "All mstatus/mepc combinations in all states.", "anchors": ["src/core_exec_trap.cpp:mret_state_update"]}
{"id": "C13", "title": "Trap then MRET resumes the interrupted context", "statement": "If a trap is taken and the handler leaves mepc and mstatus as found and restores the registers it used, executing MRET resumes at the interrupted pc with the interrupt-enable bit that was in force before the trap.", "quantifier": "all traps, all states, any handler that preserves mepc/mstatus", "why_tests_cant": "Ranges over all handlers and states.", "anchors": ["src/core_exec_trap.cpp"]}
{"id": "C14", "title": "Interrupts are taken exactly when pending, enabled and globally enabled", "statement": "At each step an interrupt is taken iff MIE is set and some source is both pending in mip and enabled in mie (and the step is not about to execute WFI); an external interrupt has priority over a timer interrupt; when none qualifies the instruction at pc executes.", "quantifier": "all states, all combinations of mie/mip/mstatus, both interrupt sources", "why_tests_cant": "Interrupt arrival may coincide with any instruction in any state.", "anchors": ["src/core.cpp:check_interrupts", "src/core.cpp:single_step"]}
{"id": "C15", "title": "WFI stalls without effect and wakes on a pending enabled interrupt", "statement": "After WFI retires, each step leaves registers, memory and pc unchanged until an enabled interrupt is pending; then execution resumes - at the handler if MIE is set, at the next instruction otherwise - and it always resumes once mtime reaches mtimecmp with the timer enabled.", "quantifier": "all states, any stall length", "why_tests_cant": "Stall lengths are unbounded and wake-up is a liveness property.", "anchors": ["src/core.cpp:single_step", "src/core.cpp:check_interrupts", "src/core.cpp:d_system"]}
{"id": "C16", "title": "pc stays aligned", "statement": "In every reachable state pc is 4-byte aligned (2-byte aligned when RV32C is enabled).", "quantifier": "all programs, all histories from reset, including values written to mtvec/mepc by the program", "why_tests_cant": "An invariant over all reachable states.", "anchors": ["src/core.cpp", "src/core_exec_i_branch_jump.cpp", "src/csrs.h"]}
{"id": "C17", "title": "Undefined encodings raise illegal-instruction", "statement": "Stepping an instruction word that is not a defined instruction of the configured ISA raises an illegal-instruction exception (cause 2, mtval = the word) and has no other effect.", "quantifier": "all 2^32 instruction words not in the ISA, all states", "why_tests_cant": "2^32 words x states.", "anchors": ["src/core.cpp:exec", "src/core.cpp:d_custom_ext", "src/core.cpp:d_compressed_0", "src/core.cpp:d_compressed_1", "src/core.cpp:d_compressed_2"]}
{"id": "C18", "title": "CSR permissions and hardwired fields hold in every history", "statement": "No program can change a read-only CSR or a hardwired field: misa, mhartid, mconfigptr keep their reset values, all WARL-zero CSRs read 0, mstatus.MPP is always 11, and mtvec/mepc low bits are always 0; writing a read-only CSR traps.", "quantifier": "all programs and histories from reset", "why_tests_cant": "An invariant over unbounded instruction sequences.", "anchors": ["src/core.h:write_csr", "src/csrs.h", "src/core_exec_zicsr.cpp"]}
{"id": "C19", "title": "CSR instructions are atomic read-modify-write", "statement": "CSRRW/RS/RC and immediate forms return the old CSR value in rd and store new/old|mask/old&~mask (subject to the CSR's write mask); RS/RC with x0 or zero immediate perform no write; access to a nonexistent CSR raises illegal-instruction with no effect.", "quantifier": "all CSR addresses, all operands, all states, rd=rs1 aliasing", "why_tests_cant": "4096 addresses x 6 ops x operand values x states.", "anchors": ["src/core.cpp:d_csr_access", "src/core_exec_zicsr.cpp"]}
{"id": "C20", "title": "minstret and mcycle count exactly", "statement": "A read of the 64-bit minstret (mcycle) returns the number of instructions retired (steps taken) since reset, or since the last software write plus the value written, modulo 2^64, with carry from the low into the high half, in every history.", "quantifier": "all histories including software writes to either half at any time", "why_tests_cant": "Counters are updated lazily; correctness depends on the whole history of accesses.", "anchors": ["src/core_exec_zicsr.cpp:csr_cnt_update", "src/core.h:csr_wide_add"]}
{"id": "C21", "title": "User counter CSRs mirror machine counters and mtime", "statement": "At every CSR read, cycle/instret/hpmcounterN equal mcycle/minstret/mhpmcounterN (both halves) and time/timeh equal the CLINT mtime register; user-level shadows cannot be written.", "quantifier": "all reads in all histories", "why_tests_cant": "Shadow copies are refreshed lazily; all interleavings of reads and writes matter.", "anchors": ["src/core_exec_zicsr.cpp:csr_cnt_update", "src/csrs.h"]}
{"id": "C22", "title": "Compressed instructions equal their expansions", "statement": "With RV32C enabled, stepping a legal 16-bit instruction has the same architectural effect as stepping the 32-bit instruction the C extension defines as its expansion, except that the link value and the sequential pc are pc+2.", "quantifier": "all legal 16-bit encodings, all states", "why_tests_cant": "2^16 encodings x all states.", "anchors": ["src/core_exec_c.cpp", "src/core.cpp:d_compressed_0", "src/core.cpp:d_compressed_1", "src/core.cpp:d_compressed_2"]}
{"id": "C23", "title": "Run limits are exact", "statement": "Running with an instruction limit N stops exactly when N instructions have retired (unless it stops earlier), and with a step limit N after exactly N steps, and the reported instruction count, final pc and counters describe the executed instructions.", "quantifier": "all programs, all N", "why_tests_cant": "Ranges over all N and programs.", "anchors": ["src/core.cpp:run", "src/core.cpp:single_step"]}
{"id": "C24", "title": "Writing tohost ends the simulation exactly then", "statement": "The simulation stops because of tohost in the step whose CSR instruction leaves bit 0 of tohost set, and in no earlier step; no later instruction executes.", "quantifier": "all programs and histories", "why_tests_cant": "Invariant over executions.", "anchors": ["src/core.cpp:d_csr_access", "src/core.cpp:run"]}
{"id": "C25", "title": "Every step is exactly one of retire, trap or idle", "statement": "Each simulator step increases the step counter by one and does exactly one of: retire one instruction (instruction counter +1), take a trap (instruction counter unchanged, pc = mtvec), or idle in WFI (pc unchanged); hence retired instructions never exceed steps.", "quantifier": "all programs, any number of steps", "why_tests_cant": "Invariant over unbounded executions.", "anchors": ["src/core.cpp:single_step"]}
{"id": "C26", "title": "No guest program can trigger host undefined behaviour", "statement": "For every guest program and state, executing a step does not evaluate an operation with undefined behaviour in C++ (shift count out of range, signed overflow, out-of-bounds container access, uninitialised read).", "quantifier": "all guest programs and states", "why_tests_cant": "UB manifests only for particular operands and may be invisible on the tested compiler.", "anchors": ["src/core_exec_i_arith.cpp", "src/core_exec_m.cpp", "src/core.h:write_rf_pair", "src/core_exec_custom_simd_arith_mul.cpp", "src/core_exec_custom_simd_arith_wmul.cpp", "src/core_exec_custom_simd_arith_dot.cpp", "src/core_exec_custom_simd_data_fmt_widen.cpp"]}
{"id": "C27", "title": "The memory map is decoded exactly", "statement": "A data access of size s at address a reaches RAM, UART or CLINT iff the whole access lies in that device's half-open range, in which case offset a-base is used; every other address raises an access fault with mtval = a; a misaligned access raises a misaligned exception.", "quantifier": "all 2^32 addresses, all sizes", "why_tests_cant": "Boundary conditions at every region edge; wrap-around at 2^32.", "anchors": ["src/memory.cpp:set_addr", "src/types.h:mem_map"]}
{"id": "C28", "title": "Devices are isolated from each other", "statement": "An access routed to one device never changes the contents of another, and a load has no effect on memory (other than the UART receive register pop).", "quantifier": "all accesses, all device states", "why_tests_cant": "Frame property over all device contents.", "anchors": ["src/memory.cpp", "src/devices/uart.cpp", "src/devices/clint.cpp"]}
{"id": "C29", "title": "ELF segment permissions are enforced on every access", "statement": "A byte belonging to a loaded segment without write permission never changes during simulation, bytes in a segment without read permission are never returned by a load, and no instruction is fetched from a segment without execute permission; a violating access aborts the run.", "quantifier": "all segment layouts, all access histories", "why_tests_cant": "Ranges over all segment layouts (including overlapping or unaligned ones) and histories.", "anchors": ["src/devices/main_memory.cpp:check_access", "src/devices/main_memory.cpp:burn_elf"]}
{"id": "C30", "title": "mtime advances at the documented rate", "statement": "After n timer updates mtime has advanced by exactly floor((n + t0)/100) since reset or the last write, where t0<100 is the sub-tick remainder, modulo 2^64; it never goes backwards except by a guest store.", "quantifier": "all n, all interleavings with guest stores to mtime", "why_tests_cant": "Unbounded number of updates.", "anchors": ["src/devices/clint.cpp:update_mtime"]}
{"id": "C31", "title": "Timer pending bit equals mtime >= mtimecmp", "statement": "After each timer update mip.MTIP is set iff mtime >= mtimecmp as unsigned 64-bit numbers, and no other mip bit changes.", "quantifier": "all 64-bit mtime/mtimecmp values", "why_tests_cant": "2^128 combinations.", "anchors": ["src/devices/clint.cpp:update_mtime"]}
{"id": "C32", "title": "UART output is exactly the stored bytes in order", "statement": "The UART log is, after any history, the sequence of low bytes of all stores to the TX register in program order; nothing else appends to it and nothing is lost; stores to STATUS and RX are ignored.", "quantifier": "all access histories", "why_tests_cant": "Unbounded histories.", "anchors": ["src/devices/uart.cpp:wr"]}
{"id": "C33", "title": "UART input is delivered losslessly and in order", "statement": "The bytes a guest obtains by reading RX while RX_VALID is set form a prefix of the input stream, in order and without loss or duplication; RX data is never overwritten while RX_VALID is set; MEIP equals RX_VALID after every UART operation; no more than one byte is taken per 8680 simulated time units, none before time 8680.", "quantifier": "all input strings, all interleavings of time updates and guest reads", "why_tests_cant": "All schedules of guest reads against arrival times.", "anchors": ["src/devices/uart.cpp:update_input", "src/devices/uart.cpp:rd"]}
{"id": "C34", "title": "SIMD add/sub are lane-wise with wrap or saturation", "statement": "ADD/SUB16/8 give in each lane the sum/difference modulo 2^w; QADD/QSUB give the mathematically exact sum/difference clamped to the signed or unsigned lane range; lanes do not affect each other.", "quantifier": "all operand pairs, all lanes, both widths and signedness", "why_tests_cant": "2^64 operand pairs.", "anchors": ["src/core_exec_custom_simd_arith_add_sub.cpp:alu_c_add_sub_op", "src/core_exec_custom_simd.h:extract_val"]}
{"id": "C35", "title": "SIMD min/max and shifts are lane-wise", "statement": "MIN/MAX give per lane the smaller/larger lane under the chosen signedness; SLLI/SRLI/SRAI shift each lane by the immediate modulo the lane width, with zero or sign fill; lanes do not affect each other.", "quantifier": "all operands, lanes, immediates", "why_tests_cant": "2^64 operand pairs.", "anchors": ["src/core_exec_custom_simd_arith_min_max.cpp:alu_c_min_max_op", "src/core_exec_custom_simd_arith_shift.cpp:alu_c_shift_op"]}
{"id": "C36", "title": "SIMD multiplies are lane-wise exact", "statement": "MUL/MULH give per lane the low/high half of the exact lane product; WMUL gives the full double-width products with low lanes in rd and high lanes in rd+1.", "quantifier": "all operand pairs, lanes, signedness", "why_tests_cant": "2^64 operand pairs.", "anchors": ["src/core_exec_custom_simd_arith_mul.cpp:alu_c_mul_op", "src/core_exec_custom_simd_arith_wmul.cpp:alu_c_wmul_op"]}
{"id": "C37", "title": "SIMD dot product accumulates exactly", "statement": "DOT adds to rd, modulo 2^32, the exact sum over lanes of the products of corresponding lanes under the chosen signedness, for lane widths 16, 8, 4 and 2.", "quantifier": "all operands and accumulators", "why_tests_cant": "2^96 inputs.", "anchors": ["src/core_exec_custom_simd_arith_dot.cpp:alu_c_dot_op"]}
{"id": "C38", "title": "SIMD widen and narrow are exact and mutually inverse", "statement": "WIDEN sign/zero-extends each lane (shifted by the immediate) into double-width lanes of the register pair; NARROW truncates and QNARROW clamps double-width lanes; narrowing a widened vector returns the original.", "quantifier": "all operands, lane widths, signedness", "why_tests_cant": "2^64 operand pairs.", "anchors": ["src/core_exec_custom_simd_data_fmt_widen.cpp:data_fmt_c_widen_t", "src/core_exec_custom_simd_data_fmt_narrow.cpp:data_fmt_c_narrow_t", "src/core_exec_custom_simd.h:pack_wide"]}
{"id": "C39", "title": "SIMD transpose, duplicate, insert and extract satisfy their lane laws", "statement": "TXP interleaves even lanes of both sources into rd and odd lanes into rd+1 and is an involution on pairs; DUP fills all lanes; VINS replaces exactly the selected lane; VEXT returns the selected lane extended; extracting an inserted lane returns it.", "quantifier": "all operands, lane indices, widths", "why_tests_cant": "All operands and lanes.", "anchors": ["src/core_exec_custom_simd_data_fmt_txp.cpp", "src/core_exec_custom_simd_data_fmt_dup.cpp", "src/core_exec_custom_simd_data_fmt_vins.cpp", "src/core_exec_custom_simd_data_fmt_vext.cpp"]}
{"id": "C40", "title": "Register-pair results land in rd and rd+1 only", "statement": "Pair-producing SIMD instructions write both halves to rd and rd+1 for rd in 1..30, write nothing for rd=0, raise an exception for rd=31 without any other effect, and change no other register.", "quantifier": "all pair instructions, all rd", "why_tests_cant": "All operand values and rd choices including the boundary registers.", "anchors": ["src/core.h:write_rf_pair"]}
{"id": "C41", "title": "The cache model is textbook set-associative LRU", "statement": "With the promote-on-insert policy, for every sequence of accesses, hits and misses are exactly those of a set-associative cache that keeps each set in recency order and evicts the least recently used unlocked line, filling empty ways first.", "quantifier": "all access sequences, all power-of-two set counts, all way counts", "why_tests_cant": "Unbounded traces and configurations.", "anchors": ["src/hw_models/cache.cpp:reference", "src/hw_models/cache.cpp:miss", "src/hw_models/cache.cpp:update_lru"]}
{"id": "C42", "title": "Cache accounting is conserved", "statement": "While profiling is on, references = hits + misses, split by reads and writes; core traffic is the sum of access sizes; memory read traffic is 64 x misses; replacements never exceed misses; nothing is counted while profiling is off.", "quantifier": "all access sequences and profiling on/off schedules", "why_tests_cant": "Unbounded traces.", "anchors": ["src/hw_models/cache_stats.h", "src/hw_models/cache.cpp"]}
{"id": "C43", "title": "Locked scratchpad lines stay resident", "statement": "A line locked by scp.lcl stays cached until it is released, whatever accesses happen in between; a set never holds more than ways-1 locked lines so an access can always be allocated; scp.lcl reports success iff the line is locked afterwards; scp.rel reports success iff it released a locked line.", "quantifier": "all access/lock/release sequences, all way counts", "why_tests_cant": "Unbounded traces.", "anchors": ["src/hw_models/cache.cpp:convert_to_scp", "src/hw_models/cache.cpp:release_scp", "src/hw_models/cache.cpp:reference"]}
{"id": "C44", "title": "Functional cache data is coherent with memory", "statement": "In functional mode every valid data-cache line equals memory and every cached read returns the bytes of the most recent writes, so verification never reports a mismatch, for write-back and write-through, in every access history.", "quantifier": "all access sequences, configurations and both write policies", "why_tests_cant": "Unbounded traces with evictions and refills.", "anchors": ["src/hw_models/cache.cpp", "src/devices/main_memory.cpp"]}
{"id": "C45", "title": "Write-back traffic is exact", "statement": "A line is dirty iff it was written since it was filled; a write-back cache writes back each dirty line exactly once on eviction; a write-through cache writes on every store and never has dirty lines; memory write traffic = 64 x writebacks.", "quantifier": "all access sequences, both policies", "why_tests_cant": "Unbounded traces.", "anchors": ["src/hw_models/cache.cpp", "src/hw_models/cache_stats.h"]}
{"id": "C46", "title": "More ways never hurt (LRU inclusion)", "statement": "For the same set count and trace without locking, every access that hits in a cache with w ways also hits in one with w' >= w ways, so reported miss counts are monotone in associativity.", "quantifier": "all traces, all w <= w'", "why_tests_cant": "Relates two unbounded executions.", "anchors": ["src/hw_models/cache.cpp"]}
{"id": "C47", "title": "Region-of-interest statistics are passive and count only the region", "statement": "Setting a region of interest does not change cache contents, hits or totals, and its reference count equals the number of accesses whose address lies in [start, start+size).", "quantifier": "all traces and regions", "why_tests_cant": "Unbounded traces.", "anchors": ["src/hw_models/cache_stats.h:region_of_interest_t"]}
{"id": "C48", "title": "Predictor tables are never indexed out of range and counters saturate", "statement": "For every accepted predictor configuration and branch history, every table index is below the table size and every saturating counter stays within 0..2^n-1, moving by at most one per branch in the resolved direction.", "quantifier": "all configurations accepted by validation, all branch histories", "why_tests_cant": "Configuration space x unbounded histories.", "anchors": ["src/hw_models/bp_pht.h", "src/hw_models/bp_bimodal.h", "src/hw_models/bp_gshare.h", "src/hw_models/bp_gselect.h", "src/hw_models/bp_global.h", "src/hw_models/bp_local.h"]}
{"id": "C49", "title": "A prediction is always one of the two successors", "statement": "Every predictor other than none/ideal predicts either the branch target or pc+4, for every pc, target and history.", "quantifier": "all predictors, states, branches", "why_tests_cant": "Unbounded histories.", "anchors": ["src/hw_models/bp.h:predict_common", "src/hw_models/bp_static.h", "src/hw_models/bp_combined.h"]}
{"id": "C50", "title": "Ideal, none and static predictors behave as named", "statement": "The ideal predictor is correct on every branch; 'none' is never counted correct; always-taken, always-not-taken and backward-taken-forward-not-taken follow their rule on every branch.", "quantifier": "all branches and histories", "why_tests_cant": "Unbounded histories.", "anchors": ["src/hw_models/bp_ideal.h", "src/hw_models/bp_none.h", "src/hw_models/bp_static.h"]}
{"id": "C51", "title": "Counter predictors learn and forget in bounded time", "statement": "An n-bit counter predictor predicts taken after at most 2^n-1 consecutive taken outcomes at the same table entry from any state, and symmetrically not-taken, and a saturated counter with n>=2 tolerates one opposite outcome without changing its prediction.", "quantifier": "all counter widths 1..8, all starting counter values, all run lengths", "why_tests_cant": "Unbounded outcome sequences.", "anchors": ["src/hw_models/bp_pht.h"]}
{"id": "C52", "title": "The combined predictor selects the component that has been right", "statement": "The combined predictor always returns one of its two components' predictions; the selector moves toward a component only on branches where exactly that component was correct, so after enough such branches it follows that component.", "quantifier": "all component behaviours and histories", "why_tests_cant": "Unbounded histories.", "anchors": ["src/hw_models/bp_combined.h", "src/hw_models/bp_pht.h"]}
{"id": "C53", "title": "Hardware models do not affect architectural results", "statement": "For every program, the architectural state after any number of steps (registers, pc, memory, CSRs, device output) is the same whichever branch predictor or cache configuration is selected and whether the hardware models are compiled in at all, except for values returned by scratchpad hints.", "quantifier": "all programs, all predictors, any number of steps", "why_tests_cant": "Relates two unbounded executions under all predictors.", "anchors": ["src/core.cpp:d_branch", "src/core.cpp:fetch", "src/memory.cpp:rd_inst", "src/hw_models/bp_if.cpp"]}
{"id": "C54", "title": "Branch statistics are conserved", "statement": "While profiling, predicted + mispredicted equals the number of conditional branches evaluated, split exactly by direction, and per-branch predicted counts sum to the total.", "quantifier": "all branch histories and profiling schedules", "why_tests_cant": "Unbounded histories.", "anchors": ["src/hw_models/bp_stats.h", "src/hw_models/bp_if.cpp"]}
{"id": "C55", "title": "The branch pattern string is lossless", "statement": "The run-length pattern recorded for a branch decodes back to exactly its taken/not-taken history, with maximal runs.", "quantifier": "all nonempty taken/not-taken sequences", "why_tests_cant": "All sequences of any length.", "anchors": ["src/hw_models/bp_if.cpp:find_run_length"]}
{"id": "C56", "title": "The divider model classifies every division exactly once", "statement": "Every division is counted as exactly one of cache hit, special case or common case; special classification is by zero, overflow, |a|<|b|, power-of-two divisor in that order; a repeated operand pair hits iff it is among the last E common-case pairs; the common-case quotient-bit count equals the bit length of |a| minus that of |b| plus 1 and is within 1..32.", "quantifier": "all operand sequences, all cache sizes E>=1, all operands", "why_tests_cant": "Unbounded operand sequences and 2^64 operands.", "anchors": ["src/hw_models/divider.h", "src/hw_models/divider_stats.h"]}
{"id": "C57", "title": "Instruction profile totals equal profiled instructions", "statement": "The sum of all per-instruction counts equals the number of instructions logged while the profiler was active, for every program and activation schedule; branch breakdowns sum to their count.", "quantifier": "all instruction streams and activation schedules", "why_tests_cant": "Unbounded streams.", "anchors": ["src/profilers/profiler.cpp:log_inst", "src/profilers/profiler.cpp:log_to_file_and_print"]}
{"id": "C58", "title": "Callstack profiling never loses samples and never empties the stack", "statement": "The profiler's callstack is never empty, and the samples over all folded callstacks plus the pending count equal the number of events recorded while active, for every sequence of calls, returns, tail calls, branches and fallthroughs.", "quantifier": "all symbol maps, all control-flow sequences", "why_tests_cant": "Unbounded control-flow histories.", "anchors": ["src/profilers/profiler_perf.cpp"]}
{"id": "C59", "title": "Profiling windows follow the requested start/stop points", "statement": "Profiling switches on at the configured start pc occurrence (or start hint) and off at the stop pc occurrence (or stop hint), exactly at the requested match counts, and with exit-on-stop the simulation ends there.", "quantifier": "all pc traces and configured match numbers", "why_tests_cant": "Unbounded traces.", "anchors": ["src/core.cpp:single_step", "src/core.cpp:prof_state", "src/types.h"]}
{"id": "C60", "title": "Fusion analysis terminates and counts exactly the LEA pairs", "statement": "Each slli examined by the fusion profiler is processed in a bounded number of transitions and counted iff its shift is 1 or 2 and the next instruction is an add that accumulates the shifted register.", "quantifier": "all instruction pairs", "why_tests_cant": "All pairs of 32-bit words.", "anchors": ["src/profilers/profiler_fusion.cpp"]}
{"id": "C61", "title": "Peak stack usage is the true minimum", "statement": "The reported stack usage is stack top minus the smallest stack pointer value above the RAM base observed while tracking, and it is monotone over the run.", "quantifier": "all stack pointer histories", "why_tests_cant": "Unbounded histories.", "anchors": ["src/profilers/profiler.cpp:track_sp"]}
{"id": "C62", "title": "The ELF loader builds exactly the image the program headers describe", "statement": "If loading an ELF file succeeds, every byte of RAM is the file byte of the last loadable segment covering its address, or the power-up fill value; the permission table has one region per loadable segment plus a read-write region above the highest one; a file with no loadable segment or with a segment outside RAM is rejected without touching memory outside the RAM array.", "quantifier": "all program header tables (any number of segments, addresses, sizes, overlaps)", "why_tests_cant": "Unbounded tables with 64-bit addresses and sizes, including overflow of address plus size.", "anchors": ["src/devices/main_memory.cpp:burn_elf", "src/devices/main_memory.cpp:burn_bin"]}
{"id": "C63", "title": "Every retired instruction is profiled once, under its own name", "statement": "With profilers enabled, each retired instruction produces exactly one entry of the instruction profile, on the line carrying its own mnemonic (with outcome and direction for branches and jumps); instructions that trap or end the run produce at most one; over a run the number of entries is the number of retired instructions plus at most one per trap and one for the end.", "quantifier": "all programs, all instruction words of every supported extension, all run lengths", "why_tests_cant": "Every encoding of every instruction and unbounded runs.", "anchors": ["src/core.cpp:single_step", "src/core.cpp:exec", "src/core_exec_c.cpp", "src/profilers/profiler.cpp:log_inst", "src/defines.h:PROF_G"]}
{"id": "C64", "title": "The profiled callstack's innermost frame is the current function", "statement": "After each finished instruction the innermost frame of the profiled callstack is the function (nearest preceding symbol) that holds the next pc, whenever some function does, whatever calls, jumps, traps and mispaired returns came before.", "quantifier": "all symbol maps, all histories, all next pcs", "why_tests_cant": "Unbounded histories, including ones that corrupt the callstack.", "anchors": ["src/profilers/profiler_perf.cpp:finish_inst", "src/profilers/profiler_perf.cpp:find_symbol_in_range"]}
{"id": "C65", "title": "Nested calls are folded under the program's own stacks", "statement": "For programs that call, tail-call and return in a nested way, the profiled callstack is at every instruction boundary the program's stack of functions, and each folded callstack holds exactly the events that happened with that stack.", "quantifier": "all symbol tables, all nested programs of any length and depth", "why_tests_cant": "Unbounded call depth and program length.", "anchors": ["src/profilers/profiler_perf.cpp", "src/devices/main_memory.cpp:burn_elf"]}
{"id": "C66", "title": "A predictor's answer is a function of the branches before", "statement": "After any sequence of branches, a static, bimodal, local, global, gselect, gshare or combined predictor answers exactly what the list of past branches determines: saturating counters selected by folded address bits, by the newest outcomes of all branches (newest in bit 0), by the newest outcomes of the branches sharing an address part, or by both, as the class's name says; a combined predictor follows the component that its chooser counter, moved by exactly the branches on which the two disagree in correctness, favours.", "quantifier": "all accepted configurations (combined nested to any depth), all branch sequences, all next branches", "why_tests_cant": "Unbounded histories times all configurations; a history shifted, masked or updated wrongly still yields plausible predictions.", "anchors": ["src/hw_models/bp_local.h:eval_and_update", "src/hw_models/bp_global.h:predict", "src/hw_models/bp_gselect.h:get_idx", "src/hw_models/bp_gshare.h:get_idx", "src/hw_models/bp.h:get_pc", "src/hw_models/bp_combined.h:eval_and_update"]}
{"id": "C67", "title": "History predictors learn periodic branches", "statement": "A local, global, gselect or gshare predictor that sees one branch repeat a pattern no longer than its history mispredicts none of its executions once (history length) + (period) x (largest counter value) of them have passed.", "quantifier": "all accepted configurations, all patterns with period up to the history length, all later executions", "why_tests_cant": "All patterns and unboundedly many executions.", "anchors": ["src/hw_models/bp_local.h", "src/hw_models/bp_global.h", "src/hw_models/bp_gselect.h", "src/hw_models/bp_gshare.h", "src/hw_models/bp_pht.h:update"]}
{"id": "C68", "title": "A log record is the instruction that executed", "statement": "With the execution log enabled, the assembly text of every instruction that executes without trapping, read by an assembler at the address of that instruction, assembles to exactly the word that was executed (mnemonic, registers in either naming mode, immediates, branch targets, CSR names, SIMD lane numbers).", "quantifier": "for every instruction word of RV32IMC, Zbb min/max, Zicsr and the custom group, every register and immediate, every machine state, every naming mode and every formatting state left by earlier records", "why_tests_cant": "2^32 words times formatting states of a stream whose flags persist across records; a test compares a few listings and cannot exclude two words printing alike.", "anchors": ["src/defines.h: DASM_OP, DASM_OP_RD, FHEXN, FRF, DASM_ALIGN", "src/core.cpp: d_alu_reg, d_alu_imm, d_load, d_store, d_branch, d_jal, d_jalr, d_lui, d_auipc, d_system, d_csr_access, d_custom_ext", "src/core_exec_c.cpp", "src/core.h: rf_names"]}
{"id": "C69", "title": "Log notes state the instruction's effects truthfully", "statement": "In the log record of an instruction that did not trap, every register the instruction changed is noted with its new value; a load notes the address it read; a store notes the address, register and value stored; a CSR write notes the CSR and its new value.", "quantifier": "for every instruction, state and sequence of earlier records", "why_tests_cant": "The stream's adjustment flag is sticky, so whether a note is right depends on the whole history of records before it.", "anchors": ["src/defines.h: DASM_RD_UPDATE_P, DASM_MEM_UPDATE_P, CSRF, FHEXN, MEM_ADDR_FORMAT", "src/core_exec_c.cpp: c_lw, c_lwsp, c_sw, c_swsp", "src/core.cpp: d_load, d_store, d_csr_access"]}
{"id": "C70", "title": "The record of a trap claims no effect", "statement": "The log record of an instruction that trapped consists of the text of the trap: it does not claim a register or memory update.", "quantifier": "for every trapping instruction, every state and earlier records", "why_tests_cant": "Depends on which of the many trap paths returns before the text is appended; every undefined encoding is a separate path.", "anchors": ["src/core.cpp: d_store, d_branch, d_custom_ext, d_system, d_misc_mem", "src/trap.cpp: DASM_PTR_TRAP"]}
{"id": "C71", "title": "The execution log does not change what a program does", "statement": "Runs of any length with the execution log produce the same architectural state, the same traps and the same undefined behaviour as without it.", "quantifier": "for every program, state, run length, environment and log content", "why_tests_cant": "Noninterference over all programs and all run lengths.", "anchors": ["src/core.cpp: single_step, log_inst", "src/types.h: dasm_str"]}
{"id": "C72", "title": "Register use counters count operands", "statement": "While profiling is active, each retired instruction adds one to the counter of every register operand in the role it has (destination, second destination, first and second source, accumulator) and to no other counter; no counter outside the table is touched. Over a run without traps the counters are exactly the operand counts of the retired instructions.", "quantifier": "for every program, state, run length, profiling window and register", "why_tests_cant": "Needs every instruction word in every role and runs of any length; each encoding has its own profiling calls.", "anchors": ["src/profilers/profiler_rf.cpp: log_reg_use", "src/defines.h: PROF_RD, PROF_RDP, PROF_RS1, PROF_RS2, PROF_RS3, PROF_C_*", "src/core_exec_c.cpp"]}
{"id": "C73", "title": "The register trace has one entry per profiled instruction, about that instruction", "statement": "The register trace holds exactly one entry for each instruction retired while profiling is active, in order; the entry carries the instruction's opcode, its destination and source registers, and whether the results written are zero.", "quantifier": "for every program, state, run length and profiling window", "why_tests_cant": "An entry is assembled piecewise from calls spread over all instructions and can inherit parts from earlier ones; only an invariant over whole runs rules that out.", "anchors": ["src/profilers/profiler_rf.h: rf_trace_entry, set_active", "src/profilers/profiler_rf.cpp: add_te", "src/core.cpp: save_trace_entry, prof_state", "src/defines.h: PROF_RD_ZERO, PROF_RDP_ZERO"]}
{"id": "C74", "title": "The instruction trace has one entry per profiled instruction, about that instruction", "statement": "The instruction trace holds exactly one entry for each instruction retired while profiling is active, in order, with its word and size, its address and the address executed next, the stack pointer and instruction count after it, whether it transferred control, and the direction, width and address of its data access if it makes one. Keeping the trace changes nothing the program does.", "quantifier": "for every program, state, run length and profiling window", "why_tests_cant": "Every instruction has its own reporting calls, and an entry can inherit parts from instructions that trapped or ran before profiling started; only an invariant over whole runs settles it.", "anchors": ["src/core.cpp: single_step, save_trace_entry", "src/profilers/profiler.h: trace_entry", "src/profilers/profiler.cpp: add_te", "src/core_exec_i_mem.cpp: PROF_DMEM", "src/core_exec_c.cpp"]}
{"id": "C75", "title": "The reported peak stack usage is the peak", "statement": "The reported peak stack usage is the largest distance of the stack pointer below the top of main memory, over all instructions retired so far, counting the stack pointers that point into main memory.", "quantifier": "for every program and run length", "why_tests_cant": "A maximum over whole runs of any length, whatever instruction moved the stack pointer.", "anchors": ["src/profilers/profiler.cpp: track_sp, log_to_file_and_print", "src/core.cpp: single_step"]}
{"id": "C76", "title": "The stack access counters count the accesses to the stack", "statement": "While profiling is active, the stack load (store) counter goes up by one for each retired load (store) whose address is on the stack, at or above the stack pointer in main memory, and for nothing else.", "quantifier": "for every program, state, run length and profiling window", "why_tests_cant": "Depends on six separate reporting sites, on traps and on the order of register write and comparison, over runs of any length.", "anchors": ["src/profilers/profiler.h: stack_access_t, log_stack_access_load, log_stack_access_store", "src/core.cpp: d_load, d_store", "src/core_exec_c.cpp: c_lw, c_lwsp, c_sw, c_swsp"]}
{"id": "C77", "title": "The samples of a performance event are the retired instructions of its class", "statement": "The samples reported for a performance event (instructions, control transfers, register jumps, branches, memory accesses, loads, multiplications, divisions, SIMD, SIMD arithmetic, dot products), summed over all callstacks, are the retired instructions of that class while profiling is active; profiling changes nothing the program can observe.", "quantifier": "for every program, symbol map, set of events, state, run length and profiling window", "why_tests_cant": "Depends on some thirty separate reporting sites, on the order of calls within a step, and on traps, windows and limits falling between them, over runs of any length.", "anchors": ["src/profilers/profiler_perf.cpp: update_jal, update_jalr, update_branch, finish_inst, finish", "src/defines.h: PROF_SET_PERF_EVENT_*", "src/core.cpp: exec, single_step, prof_state", "src/core_exec_c.cpp", "src/core_exec_trap.cpp"]}
{"id": "C78", "title": "The end-of-run report tells how the program ended", "statement": "After a run the report says that a test failed exactly when the program wrote a failing value to tohost, names that test and whether it ended in a trap, and shows the tohost value, pc, registers and instruction counts of the final state.", "quantifier": "for every program, build without profilers or state without early exit, run length", "why_tests_cant": "The report is computed from a CSR that other parts of the simulator also write; every way of stopping must be considered.", "anchors": ["src/core.cpp: run, finish, dump", "src/csrs.h: tohost"]}
{"id": "C79", "title": "A memory dump shows the memory and changes nothing", "statement": "Dumping a region prints its words in order, little-endian, and leaves registers, CSRs, memory and devices as they were.", "quantifier": "for every state, start and size", "why_tests_cant": "The dump goes through the same accessors as the program, with devices, protection, traps and statistics behind every address.", "anchors": ["src/memory.cpp: dump_as_words", "src/core.cpp: finish", "src/devices/dev.h"]}
{"id": "C80", "title": "A numeric option means the number written", "statement": "The value of a numeric option is the decimal (for addresses: hexadecimal, with or without 0x) number written; text that is not such a number, or a number that does not fit the option, is refused with the usage text.", "quantifier": "for every text and every option type (8, 32, 64 bits; decimal, hexadecimal)", "why_tests_cant": "The set of texts is infinite and the conversion composes library parsing, error classes and integer narrowing.", "anchors": ["src/main.cpp: ARG_U32H, ARG_I8, ARG_U32, ARG_U64, main"]}
{"id": "C81", "title": "Named options are resolved by their tables", "statement": "A named option is accepted exactly when its text is one of the names listed in the help text, and stands for the value beside it; a list of names stands for the set of the values, whatever the order and repetition; the help text marks a name as an alias exactly when an earlier name has the same value.", "quantifier": "for every table with distinct names (those of the program have), every text and every list of texts", "why_tests_cant": "Lists of names are unbounded, and the tables differ between builds.", "anchors": ["src/arg_parse.h: find_arg, gen_help_list, resolve_arg, resolve_arg_list", "src/main.cpp: perf_event_map, bp_names_map, bp_sttc_map, bp_pc_folds_map"]}
{"id": "C82", "title": "The branch predictor built is the one the options describe", "statement": "Without a second predictor the one named is built, with the table sizes, history lengths, folding or static method its options give; with a second one a combination of the two is built, each with its own options, chosen by the table the combined options describe.", "quantifier": "for every combination of predictor kinds and parameter texts", "why_tests_cant": "Kinds, parameters and the rewriting of the configuration between the two predictors multiply to far more combinations than can be run.", "anchors": ["src/main.cpp: main", "src/hw_models/bp_if.cpp: create_predictor", "src/hw_models/hw_model_types.h: hw_cfg_t"]}
{"id": "C83", "title": "The hardware models see exactly the program's events", "statement": "In a build with hardware models, what the data cache, the branch predictor and the divider are told during a run is what the retired instructions do: one data cache access per load or store in main memory, with its offset, size and value; one division per division or remainder, with its operands and signedness; one prediction and one update per uncompressed branch, with its address, offset, condition and actual target; one hint per cache line hint; each once, in program order, and counted exactly while the profiler is on. Main memory changes by the stores told, only.", "quantifier": "for every program, every initial state and all hardware models with any behaviour, over runs of any length", "why_tests_cant": "The models' statistics only sum up what they are told; a missing, doubled or misattributed call shows up as a slightly wrong number, and programs and models are unbounded.", "anchors": ["src/core.cpp: core::single_step, core::d_branch, core::d_load, core::d_store, core::d_alu_reg, core::d_custom_ext", "src/memory.cpp: memory::rd, memory::wr", "src/devices/main_memory.cpp: main_memory::rd, main_memory::wr"]}
{"id": "C84", "title": "The divider's statistics describe the program's divisions", "statement": "After a run, the divider's total is the number of divisions and remainders retired while the profiler was on; each is a hit, a special or a common case, and which one follows from the operands and the divisions retired before, profiled or not.", "quantifier": "for every program, initial state, divider size and profiling window, over runs of any length in which the models do not fail", "why_tests_cant": "A hit depends on the whole history of divisions and the window decides what counts; programs and runs are unbounded.", "anchors": ["src/core.cpp: core::single_step, core::d_alu_reg", "src/hw_models/divider.h: divider"]}
{"id": "C85", "title": "The data cache's statistics describe the program's accesses", "statement": "After a run, hits and misses of loads and of stores add up to the loads and lock hints, and to the stores, retired in main memory while the profiler was on; core traffic is their bytes; memory read traffic is one line per miss and memory write traffic one line per write-back.", "quantifier": "for every program, initial state, cache configuration and profiling window, over runs of any length in which the models do not fail", "why_tests_cant": "Misses depend on the whole history; an access lost or counted twice shows only as a slightly wrong rate.", "anchors": ["src/core.cpp: core::single_step, core::d_load, core::d_store, core::d_custom_ext", "src/devices/main_memory.cpp: main_memory::rd, main_memory::wr", "src/hw_models/cache.cpp: cache"]}
{"id": "C86", "title": "The predictor's statistics describe the program's branches", "statement": "After a run, predicted and mispredicted branches add up to the uncompressed branches retired while the profiler was on, forward and backward ones separately, and the record of each branch address is that of its retired branches in order.", "quantifier": "for every program, initial state, predictor configuration but the one that predicts nothing, and profiling window, over runs of any length in which the models do not fail", "why_tests_cant": "Each record depends on the whole history of one address; programs and runs are unbounded.", "anchors": ["src/core.cpp: core::single_step, core::d_branch", "src/hw_models/bp_if.cpp: bp_if", "src/hw_models/bp.h: bp"]}
{"id": "C87", "title": "The hardware models never fail in a run", "statement": "In a run of the core, no cache reports a mismatch with memory and no cache, predictor or divider reads anything unset or out of range; the storage behind the caches stays the core's main memory, and both caches give the bytes of main memory.", "quantifier": "for every program, initial state, cache configuration and accepted predictor configuration without the one that predicts nothing, over runs of any length", "why_tests_cant": "Failures need particular sequences of fetches, stores and hints that a test has to hit; sequences are unbounded.", "anchors": ["src/devices/main_memory.cpp: main_memory::rd_inst, main_memory::rd, main_memory::wr", "src/hw_models/cache.cpp: cache", "src/hw_models/bp_if.cpp: bp_if", "src/hw_models/divider.h: divider"]}
{"id": "C88", "title": "The sparsity statistics count zero inputs and results", "statement": "While profiling is active, each retired instruction adds to the sparsity statistics: one case for every register it writes, sparse if the register is then zero; one case for every operation of its kind (load, store, ALU, multiply, dividend, divisor, SIMD), sparse if one of the operation's inputs is zero. Instructions that do not retire add nothing.", "quantifier": "for every instruction encoding and every register contents, over runs of any length", "why_tests_cant": "Each encoding passes its own operands to the counters; a wrong operand shows only for particular register values.", "anchors": ["src/defines.h: PROF_SPARSITY, PROF_SPARSITY_ANY", "src/profilers/profiler.h: profiler::log_sparsity", "src/core.cpp: core::d_alu_reg, core::d_alu_imm, core::d_load, core::d_store, core::d_custom_ext, core::d_compressed_1, core::d_compressed_2"]}
{"id": "C89", "title": "branches.csv reports exactly the profiled branches and the predictors' right answers", "statement": "With the branch report requested, the file written at the end of the run is the heading and one line for each address at which a branch was executed while profiling was active, in ascending order. The line gives the direction and comparison of the branch, how many times it was taken, not taken and executed, how many of these each predictor predicted correctly given all branches before, the name and count of the best predictor (the first with the largest count, not counting the predefined ideal one), and a string from which the taken/not-taken history can be read back. No predictor is credited with more correct predictions than executions.", "quantifier": "for every predictor configuration, every list of further predictors and every run of branches and profiling switches", "why_tests_cant": "Counts depend on the whole branch history and on when profiling was switched; a test compares one file with one expected file.", "anchors": ["src/hw_models/bp_if.cpp: bp_if::finish, bp_if::dump_csv, bp_if::find_run_length, bp_if::predict, bp_if::update", "src/hw_models/bp_if.h: arch_bp_defs, arch_bpc_defs", "src/hw_models/bp_stats.h: bp_stats_t::eval, bp_stats_t::get_predicted"]}
{"id": "C90", "title": "hw_stats.json is well-formed and gives the counters", "statement": "The file written at the end of the run is one JSON object. Reading it gives, for each cache, the predictor and the divider, exactly the events counted while profiling was active, the sizes, and the number of profiled instructions; rates are given as -1 exactly where there is nothing to divide by, and the divider's extremes are null exactly if no division went the common way.", "quantifier": "for every program, initial state, cache configuration, predictor configuration but the one that predicts nothing, and profiling window, over runs of any length", "why_tests_cant": "A field that shows another counter, or text that only sometimes is not JSON, shows only for particular counter values.", "anchors": ["src/core.cpp: core::log_hw_stats, core::finish", "src/hw_models/cache_stats.h: cache_stats_t, cache_size_t", "src/hw_models/bp_stats.h: bp_stats_t", "src/hw_models/divider_stats.h: div_stats_t, div_size_t"]}
{"id": "C91", "title": "Reported sizes are those of the modelled structures", "statement": "The size reported for a predictor is the number of bytes, rounded up, in which every content of its tables and histories can be kept; that of a cache's data, tags and flags the bytes its lines need; that of the divider's result cache the bytes its entries need.", "quantifier": "for every predictor, cache and divider configuration that is accepted", "why_tests_cant": "Configurations are open-ended; a wrong rounding shows only for particular remainders, and overflow only for large ones.", "anchors": ["src/hw_models/bp_pht.h: bp_pht", "src/hw_models/bp_global.h: bp_global", "src/hw_models/bp_combined.h: bp_combined", "src/hw_models/cache.cpp: cache::cache", "src/hw_models/cache_stats.h: cache_size_t", "src/hw_models/divider_stats.h: div_size_t"]}
{"id": "C92", "title": "inst_profile.json is well-formed and gives the instruction counts", "statement": "The file written at the end of the run is one JSON object with exactly one entry for each instruction of the build. Reading it gives for each instruction how often it was reported while profiling was active, for each branch and jump also how often it was taken and not taken, forwards and backwards, and the number of profiled instructions is the number of those reports, in builds with and without compressed instructions.", "quantifier": "for every sequence of profiler calls and activations, and for every program, configuration and profiling window over runs of any length", "why_tests_cant": "A name that breaks the text, a line that shows another counter, or compressed instructions missing from the sum show only for particular programs.", "anchors": ["src/profilers/profiler.cpp: profiler::log_to_file_and_print", "src/profilers/profiler.h: PROF_JSON_ENTRY, PROF_JSON_ENTRY_B, inst_prof_g, inst_prof_b"]}
{"id": "C93", "title": "The binary profiles read back as the profile", "statement": "The instruction trace, register trace and register use files, read with the record layout, field order and opcode tables of the analysis scripts, give one row for each instruction retired while profiling was active, in order and about that instruction, and the register use counters.", "quantifier": "for every trace content and every program and profiling window over runs of any length, whatever the bytes that pad a record", "why_tests_cant": "Writer and reader keep separate copies of the layout and of the opcode numbering; a shifted field or number shows only for entries that use it.", "anchors": ["src/profilers/profiler.cpp: profiler::log_to_file_and_print, profiler::add_te", "src/profilers/profiler.h: trace_entry, opc_g, opc_b, reg_use_t", "src/profilers/profiler_rf.h: rf_trace_entry", "src/profilers/profiler_rf.cpp: profiler_rf::finish", "script/run_analysis.py: OPC_G_NAMES, OPC_B_NAMES", "script/dep_scan.py: RF_DTYPE, decode_mnm", "script/rf_usage.py: dtype"]}
{"id": "C94", "title": "Options reach their settings", "statement": "Every option puts the value it is given, or its documented default, into its own setting and nothing else does; a command line with a path and with values of the documented kinds is accepted; the active predictor follows from the two predictors asked for; every setting the simulator looks at has been assigned; the exit status tells whether the command line was accepted and the program passed.", "quantifier": "for all builds and all command lines", "why_tests_cant": "Some fifty options are copied by hand into as many fields under five build switches; a swapped or missing line changes one setting in one build and nothing fails.", "anchors": ["src/main.cpp: main, defs_t, hw_defs_t, RESOLVE_ARG", "src/types.h: cfg_t", "src/hw_models/hw_model_types.h: hw_cfg_t", "src/core.cpp: core::core, core::finish, core::dump", "examples/ama-riscv-sim.help"]}
{"id": "C95", "title": "The output directory is the program's own and holds the outputs of its run", "statement": "The outputs of dir/base.ext go to dir_base_out, with the tag if there is one; different programs or tags have different directories; a run writes exactly the files its options ask for and afterwards the directory holds the files of that run.", "quantifier": "for all paths, tags, option settings, builds and earlier contents", "why_tests_cant": "Collisions of names and files left over from earlier runs depend on pairs of runs, which tests of single runs do not see.", "anchors": ["src/utils.h: gen_out_dir", "src/main.cpp: main", "src/core.cpp: core::finish", "src/profilers/profiler.cpp: profiler::log_to_file_and_print", "src/profilers/profiler_perf.cpp: profiler_perf::log_to_file_and_print", "src/profilers/profiler_rf.cpp: profiler_rf::finish", "src/hw_models/bp_if.cpp: bp_if::finish"]}
{"id": "C96", "title": "A callstack file reads back as the callstacks of the run", "statement": "Reading a folded callstack file as the project's script does gives one entry for each callstack of the run: the names of its functions from the outermost to the innermost and its samples. No callstack is empty or listed twice. The entries add up to the total the profiler reports, and by innermost name to the samples of each function. The name shown for a function is that of the last symbol the program lists at its address.", "quantifier": "for all symbol tables whose names the format can carry (not empty, without semicolon and white space) and all sequences of profiler calls", "why_tests_cant": "It is a statement about every run and every symbol table; a test reads back the file of one program.", "anchors": ["src/profilers/profiler_perf.cpp: profiler_perf::log_to_file_and_print", "src/profilers/profiler_perf.cpp: profiler_perf::get_callstack_str", "src/devices/main_memory.cpp: main_memory", "script/prof_stats.py: parse_folded_line"]}
{"id": "C97", "title": "The report of a run reads back as the final state, and the scripts judge the run rightly by it", "statement": "The state shown at the end reads back as the program counter, the thirty-two registers under their names and every CSR with address, name and value in the order of the addresses; the check file reads back as the number of instructions, the registers, the program counter and tohost. The scripts, which search the output for the line of tohost with the value of success or of an early exit, take a run for passed exactly if the program reported success or the profiler ended the run.", "quantifier": "for all final states, naming modes, builds and texts printed before and after the report", "why_tests_cant": "Whether a searched-for string can occur anywhere else in the output is a statement about all outputs.", "anchors": ["src/core.cpp: core::dump", "src/core.cpp: core::print_state", "src/defines.h: FRF", "src/defines.h: CSRF", "script/utils.py: SIM_PASS_STRING", "script/sim_run_utils.py: is_pass"]}
{"id": "C98", "title": "The elements a SIMD instruction adds to the execution log are its operands and result", "statement": "Reading the text that a SIMD instruction with a destination adds to its log line gives, element by element and in order, the elements of the registers before the instruction and of the destination (both registers of a pair) after it, with the shift amount or index; every number denotes its element modulo the element width, and equals it under the sign the instruction implies. An instruction without a destination and any other instruction add nothing, and the formatting of one line does not leak into the next.", "quantifier": "for all SIMD instructions, registers, register values, immediates and instructions executed before", "why_tests_cant": "The text depends on the values of two registers, the immediate and the formatting state left in four streams by every earlier instruction.", "anchors": ["src/dasm_simd.cpp: simd_ss_clear, simd_ss_append, simd_ss_finish", "src/core_exec_custom_simd_arith_add_sub.cpp", "src/core_exec_custom_simd_arith_mul.cpp", "src/core_exec_custom_simd_arith_wmul.cpp", "src/core_exec_custom_simd_arith_dot.cpp", "src/core_exec_custom_simd_arith_min_max.cpp", "src/core_exec_custom_simd_arith_shift.cpp", "src/core_exec_custom_simd_data_fmt_narrow.cpp", "src/core_exec_custom_simd_data_fmt_widen.cpp", "src/core_exec_custom_simd_data_fmt_txp.cpp", "src/core_exec_custom_simd_data_fmt_dup.cpp", "src/core_exec_custom_simd_data_fmt_vins.cpp", "src/core_exec_custom_simd_data_fmt_vext.cpp"]}
{"id": "C99", "title": "Figures of the instruction summary", "statement": "For every sequence of instructions and activations, and for every run, each figure of the printed instruction summary (compressed, branches, jumps, loads, stores, arithmetic, multiplications, divisions, bit manipulation, each group of SIMD instructions, cache hints, nops) is the number of profiled instructions whose printed name belongs to that class; the lines left out of a build without compressed instructions are those whose name starts with `c.`.", "quantifier": "all instruction streams, activation schedules and runs from reset", "why_tests_cant": "Unbounded streams over about 180 instructions and 20 classes, and a missing entry of a class only shows for programs that use it.", "anchors": ["src/profilers/profiler.h:comp_opcs_b", "src/profilers/profiler.h:alu_opcs", "src/profilers/profiler.cpp:log_to_file_and_print"]}
{"id": "C100", "title": "Which instruction fetches the instruction cache sees", "statement": "Along any run, the instruction cache sees one fetch per instruction, at the instruction's address in main memory, except that the instruction after a branch is fetched by the branch: first at the address the predictor answers (when there is a predictor), then at the right one if that was wrong. An interrupt fetches nothing and drops what a branch fetched; an instruction that ends in an exception is fetched and nothing else is; waiting fetches nothing. The records of the instructions are linked, their predictions are the predictor's answers in order, and with a predictor the number of fetches of a run of retired instructions is the number of instructions plus the number of mispredictions (plus one if the run ends in a branch).", "quantifier": "all programs, states, hardware models and numbers of steps", "why_tests_cant": "The order of fetches depends on every earlier branch and every answer of an arbitrary predictor.", "anchors": ["src/core.cpp:fetch", "src/core.cpp:branch execution (speculative and resolved fetch)", "src/main_memory.cpp:rd_inst"]}
{"id": "C101", "title": "The execution log file can be read back", "statement": "The file exec.log of any run consists of one line for each selected step that retired an instruction or trapped, in order. The line of a retired instruction reads back, by a reader that does not know how it was written, as the number of the instruction, the address and the word it was executed from (in 4 or 8 digits by its size) and the text of that step; the line of a trap is the text of the trap. No text contains a line break. Without profilers the numbers are consecutive from the count of instructions before the run to the count after it; with any options they are increasing and among these. Writing the file does not change what the program does.", "quantifier": "all programs, states, options, trap texts without line breaks, and numbers of steps", "why_tests_cant": "It quantifies over every instruction text, every address and count and every length of run; a test compares a few lines.", "anchors": ["src/core.cpp:log_inst", "src/core.cpp:single_step", "src/core.cpp:prof_state", "src/types.h:logf"]}
{"id": "C102", "title": "References of the instruction cache, retired instructions and mispredictions in the report", "statement": "In a build without profilers the statistics of the hardware models cover the whole run. After it, the references of the instruction cache equal the instructions retired, plus the mispredictions the predictor's statistics report, plus one if the last instruction was an uncompressed branch (its successor has been fetched already). Predictions and mispredictions add up to the uncompressed branches retired, and the mispredictions are exactly the branches whose next address differs from the one the predictor had answered.", "quantifier": "all programs, cache and predictor configurations, and runs of any length in which every step retires an instruction and no model fails", "why_tests_cant": "It relates three independent counters over every run; a test compares them for one program and one predictor.", "anchors": ["src/core.cpp:core::core", "src/core.cpp:fetch", "src/core.cpp:prof_state", "src/hw_models/bp_if.cpp:update", "src/hw_models/cache.cpp:reference"]}
