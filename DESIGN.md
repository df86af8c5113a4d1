# Design of the formal model

Code: `/repo` (ama-riscv-sim), a RV32IMC + Zbb(min/max) + Zicsr + Zifencei + custom-SIMD
instruction set simulator with cache, branch predictor and divider models, profilers, a UART and
a CLINT.  Everything is modelled in Lean 4 under `lean/Verif`.

## Layout

* `Verif/Model/*`  the model, function by function; each definition cites the file and lines it
  models and says what was simplified.
* `Verif/Spec/*`   small independent specifications (RISC-V manual semantics over `Int`/`Nat`,
  encodings, byte-array memory, recency lists, mnemonics, windows, ...), which never mention model
  helpers.
* `Verif/Lemmas/*` helper lemmas (bit fields, lane packing, invariants, the `Pres`/`wp` frameworks).
* `Verif/Props/*`  the theorems for each property `Cnn`, each followed by concrete `example`s that
  meet its hypotheses, and by witnesses where the code violates the property.
* `properties.jsonl` the properties; `MANIFEST.json` which theorems settle which; `seeded/LOG.jsonl`
  the mutation tests.

| model file | code |
|------------|------|
| `Basic`, `State` | outcomes, machine state, configuration, `types.h`, `core.h` members |
| `InstParser` | `inst_parser.h` |
| `Alu` | `core_exec_i_arith.cpp`, `core_exec_m.cpp`, `core_exec_b.cpp` |
| `Csr` | `csrs.h`, the CSR parts of `core.h` |
| `Mem` | `memory.cpp`, `dev.{h,cpp}`, `main_memory.cpp` access functions, `uart.cpp`, `clint.cpp` |
| `Elf` | `main_memory.cpp` image loading |
| `Simd` | `core_exec_custom_simd_*.cpp`, `defines.h` SIMD macros |
| `Core` | `core.cpp`, `core_exec_i_*.cpp`, `core_exec_zicsr.cpp`, `core_exec_c.cpp`, `core_exec_trap.cpp`, `trap.{h,cpp}`, `prof_pc_t` |
| `Cache` | `cache.cpp`, `cache.h`, `cache_stats.h`, the cache side of `main_memory.cpp` |
| `Bp` | `bp*.h`, `bp_if.cpp`, `bp_stats.h` |
| `Divider` | `divider.h`, `divider_stats.h` |
| `Prof` | `profiler.{h,cpp}`, `profiler_fusion.{h,cpp}` |
| `ProfPerf` | `profiler_perf.{h,cpp}`, symbol map of `main_memory.cpp` |
| `Dasm` | the text of the execution log: `DASM_*` macros of `defines.h`, the `DASM_EN` parts of `core.cpp` and `core_exec_*.cpp` |
| `ProfRf` | `profiler_rf.{h,cpp}` and the `PROF_RD`...`PROF_RS3` calls of `defines.h` and `core_exec_c.cpp` |
| `ProfTrace` | `trace_entry`, `add_te`, `track_sp`, `stack_access_t` of `profiler.{h,cpp}`, `save_trace_entry` of `core.cpp` |
| `ProfEvents` | the calls of `profiler_perf` by `core.cpp`, `core_exec_*.cpp` and the macros of `defines.h` |
| `Finish` | `core::run` after its loop, `core::finish`, `core::dump`, `memory::dump_as_words` |
| `Args` | option values: `main.cpp` conversions and tables, `arg_parse.h`, the predictor options and `bp_if::create_predictor` |
| `HwCalls` (Spec) | calls of the hardware models each instruction should make |
| `HwModels` | caches, predictors and divider put together as the hardware state of the core |
| `HwReal` (Spec) | what the statistics should count |
| `Sparsity`, `Sparse` (Spec) | the sparsity counters; inputs and results of each instruction |
| `Precise` | traps of every instruction word |
| `BpCsv` | the branch report `branches.csv` |
| `HwStats` | the report `hw_stats.json`: text and sizes |
| `Spec/Json` | a reader of JSON text |
| `Spec/Bin` | readers of the binary profiles, written from the scripts |
| `Model/ProfJson`, `Model/ProfBin` | the files of the instruction profiler and the register file profiler |
| `Model/Main`, `Model/OutDir` | from the options to the configuration, the exit status; the output directory and the files in it |
| `Model/PerfText` | the symbol names and the text of the callstack files (`main_memory.cpp`, `profiler_perf.cpp`); the order of the entries of the hash map is left open |
| `Model/Report` | the text of `core::print_state`, `core::dump` and the check file |
| `LogSimd` | the texts of SIMD lanes in the log have no line breaks |
| `HwRefs` | references of the instruction cache and mispredictions against the run, without profilers |
| `HwFetch` | the instruction fetches of a run; `Spec/HwFetch` says which they should be |
| `LogFile` | the lines of `exec.log` (`Dasm` has the texts); `Spec/LogText` reads them |
| `ProfClass` | the classes of the instruction summary, by printed name |
| `Model/SimdText` | the elements that SIMD instructions add to the log (`dasm_simd.cpp` and its uses) |

## Modelling decisions

* Outcomes. `Res α = ok a | ub k | abort`.  `ub` is C++ undefined behaviour (with a kind), `abort`
  is an uncaught C++ exception (memory permission violation).  Guest traps are *not* exceptional
  outcomes: as in the code a trap mutates the state (`pc`, `csr`, `trapped`) and the instruction
  body continues.
* Host semantics.  `Cfg.strict = true` makes soft UB (shift count >= 32, signed overflow, left
  shift of a negative value in C++17) the outcome `ub`; `Cfg.strict = false` gives what g++ on
  x86-64 does (shift counts mod 32, wrap around).  Out-of-bounds accesses and uninitialised reads
  are `ub` in both.
* Build flags (`RV32C`, `CUSTOM_SIMD`, `HW_MODELS_EN`, `PROFILERS_EN`, `UART_EN`, `UART_INPUT_EN`)
  and runtime configuration are fields of `Cfg`; theorems quantify over them unless they say so.
* Hardware models are a parameter `Hw σ` of the core (arbitrary state, arbitrary prediction), so
  core theorems hold for every cache and predictor.  The concrete caches, predictors and divider
  are modelled in their own files; `HwInd.withBp`/`HwInd.bp_predicts` connect the predictor
  interface to the core.  The functional cache (whose data could reach the core) is connected to
  memory by C44: what the core reads is the memory's own word in both modes.
* Profilers.  The core records each `log_inst`-style call in `profLog`; the instruction profiler is
  modelled on such streams, the callstack profiler at its public interface.  `ProfPerf` is not
  linked to the core model: its theorems quantify over all call sequences.
* Machine words are `BitVec`; `int32_t` values are `BitVec 32` with signed operations.  Registers:
  `BitVec 5 → BitVec 32`; CSRs: `BitVec 16 → BitVec 32` with the static permission table; device
  bytes: `BitVec 32 → BitVec 8` with a size, every access bounds checked (out of range = `ub`).
  64-bit event counters that only appear in reports are natural numbers.
* Time: one `step` is one `single_step`; clock source `DIFF = 1` (no DPI).

## Properties: what is modelled and how it is proved

`theorem ... _partial` marks a theorem that proves less than the property; the property's full
statement is in `properties.jsonl`, what is missing is in the docstring and in the table.

| id | property | status | proof | remarks |
|----|----------|--------|-------|---------|
| C01 | x0 always reads zero | proved | invariant of `step`, induction over steps | invariant of every step, hence of every run |
| C02 | RV32I computational instructions match the ISA | proved | step refinement to an ISA semantics over Int/Nat, all encodings | non-strict reading of C++ shifts/overflow; state ready to execute (awake, no deliverable interrupt, executable pc) |
| C03 | M extension matches the ISA including special cases | proved | values against integer arithmetic, division identity | value of every M operation against integer arithmetic |
| C04 | Zbb min/max match the ISA | proved | order lemmas |  |
| C05 | Instruction field and immediate decoding inverts encoding | proved | bit-level round trip of every format | all formats |
| C06 | Branches and jumps transfer control as specified | proved | step theorems | with hardware models: predictor answers a successor and both successors are fetchable |
| C07 | Loads return the addressed bytes with the right extension | proved | step theorem against little-endian byte spec |  |
| C08 | Stores update exactly the addressed bytes | proved | step theorem against little-endian byte spec |  |
| C09 | Memory behaves as a byte array over any access history | proved | induction over access histories, last-writer spec | histories of guest loads/stores of size 1, 2, 4 at arbitrary addresses, timer updates and UART polls |
| C10 | Exceptions are precise | partial | walk of every function a step can call: untrapped, or one trap and nothing else; negation witnesses | every 32-bit and compressed word, every state with an aligned pc, every hardware model, interrupts included: one trap and nothing else, except the words of Imprecise, for which the code violates it (witnesses for JALR with funct3 != 0, read-only CSR writes, CSR funct3 4; the malformed branch and the reserved compressed words are witnessed under C17), see DESIGN.md |
| C11 | Trap entry saves exactly the required state | proved | state theorems for every trap cause | mtval of misaligned data accesses is the memory offset, not the address |
| C12 | MRET restores interrupt-enable and pc | partial | state theorem; negation witness | the code ORs MPIE into MIE: wrong when MIE=1 and MPIE=0 (witness) |
| C13 | Trap then MRET resumes the interrupted context | proved | composition of entry, any handler and MRET |  |
| C14 | Interrupts are taken exactly when pending, enabled and globally enabled | proved | decision theorem of the interrupt check |  |
| C15 | WFI stalls without effect and wakes on a pending enabled interrupt | proved | induction over the stall | multi-step statements are for builds without profilers; the wake-up bound assumes the timer does not wrap meanwhile |
| C16 | pc stays aligned | proved | invariant | invariant of runs |
| C17 | Undefined encodings raise illegal-instruction | partial | completeness of decoding against a listing of encodings; witnesses | Every 32-bit word and halfword outside the listings raises illegal instruction with no other effect, except the classes Lax and LaxC, for which the property fails: the listed witnesses show the code executing such words or trapping with side effects. |
| C18 | CSR permissions and hardwired fields hold in every history | proved | table facts and invariants over histories | constant CSRs, MPP, address legality over runs; RO write traps |
| C19 | CSR instructions are atomic read-modify-write | proved | step theorem against an independent CSR table | The address map with its write masks is a separate specification (Spec/Csr.lean). The step-level theorem covers all six forms, all addresses, rd = rs1, and states the effect on every CSR including the two lazily kept counters; unimplemented addresses trap with no effect. csr_reject_partial covers writes to read-only CSRs and the reserved funct3, where rd is written although the instruction traps. |
| C20 | minstret and mcycle count exactly | partial | induction over histories | Any history: without software writes the counters advance by exactly the retired instructions / steps; csr_rmw gives the value read and the value after a write of either half. Missing, because false: the reserved SYSTEM encoding funct3=4 with rs1≠0 addressing a counter loses one count (witness). |
| C21 | User counter CSRs mirror machine counters and mtime | proved | step theorem | All user-level counter addresses, all instruction forms, any state ready to execute. |
| C22 | Compressed instructions equal their expansions | partial | step equality with the expansion in the ISA semantics | Every legal compressed instruction except C.EBREAK, for every state ready to execute it; accesses to devices are outside the specification. C.EBREAK stops the run instead of raising a breakpoint (negative witness). |
| C23 | Run limits are exact | partial | induction over runs | Both limits are exact for every program and N. The reported instruction count, pc and counters are right except at the step limit, where the last executed instruction is not counted: step_limit_uncounted and step_limit_minstret are concrete witnesses. |
| C24 | Writing tohost ends the simulation exactly then | proved | invariant and step theorem |  |
| C25 | Every step is exactly one of retire, trap or idle | partial | case analysis of the step | Proved for every step except the two that end the run: the step at the step limit executes without being counted as retired, and the step at the end of the profiling window counts no step; both are shown by concrete witnesses. |
| C26 | No guest program can trigger host undefined behaviour | partial | total-correctness walk of a step, run induction; witnesses | the claim is false (ub_runs, ub_runs_iso). Proved instead: every undefined step of every run fetches past the end of memory or executes one of a closed list of instructions; the base RV32IM build never has undefined behaviour on x86 semantics |
| C27 | The memory map is decoded exactly | proved | routing theorem | the code reports misaligned addresses relative to the device |
| C28 | Devices are isolated from each other | proved | frame theorems |  |
| C29 | ELF segment permissions are enforced on every access | partial | invariant over runs; witnesses | the code checks only the first byte of an access, so the claim is false for segments whose boundaries are not word aligned (straddling_store, straddling_fetch); proved for word-aligned boundaries over all runs; fetch side for builds without hardware models |
| C30 | mtime advances at the documented rate | proved | induction over updates | over access histories that do not store to mtime |
| C31 | Timer pending bit equals mtime >= mtimecmp | proved | step theorem of the timer |  |
| C32 | UART output is exactly the stored bytes in order | proved | trace induction |  |
| C33 | UART input is delivered losslessly and in order | proved | trace induction |  |
| C34 | SIMD add/sub are lane-wise with wrap or saturation | proved | lane packing lemma + Int lane specs | ADD/SUB/QADD/QSUB 16/8, all operands, lanes and signedness, both host readings; stepping the binutils encoding writes exactly the specified lanes to rd and nothing else |
| C35 | SIMD min/max and shifts are lane-wise | proved | lane specs | MIN/MAX/SLLI/SRLI/SRAI per lane, all operands and immediates |
| C36 | SIMD multiplies are lane-wise exact | partial | lane specs; exactly which operands are undefined | All operands with two's complement int arithmetic. With signed overflow undefined: undefined exactly if a product overflows an int (mul_strict, wmul_strict), and the same result as with wrapping otherwise, also when stepped (simd_step_host, simd_pair_step_host). The full statement is false there: MULH16U and WMUL16U of 0xffff*0xffff |
| C37 | SIMD dot product accumulates exactly | partial | sum over lanes; exactly which operands are undefined | All widths and operands with wrapping int arithmetic. With signed overflow undefined: undefined exactly if a product or a partial sum overflows an int (dot_strict), and the same result otherwise, also when stepped (simd_step_host). The full statement is false there: DOT16 and DOT16U of concrete operands |
| C38 | SIMD widen and narrow are exact and mutually inverse | partial | lane specs, inverse laws; exactly which operands are undefined | Narrowing proved in both readings; widening proved for all operands on a host with arithmetic left shift. When shifting negative values or set bits out is undefined (C++17): undefined exactly if an element is negative or a set bit is shifted out (widen_strict), and the same result otherwise, also when stepped (simd_pair_step_host); the full statement is false there |
| C39 | SIMD transpose, duplicate, insert and extract satisfy their lane laws | proved | lane laws | TXP involution, DUP, VINS, VEXT lane laws for all operands, indices and widths (register pair x31 is the subject of C40) |
| C40 | Register-pair results land in rd and rd+1 only | partial | step theorem; witness | rd 0..30 as stated; for rd = 31 the property is false: the code raises the exception, then writes x31 and indexes past the register file (pair_x31_ub) |
| C41 | The cache model is textbook set-associative LRU | proved | refinement to recency lists | Refinement of the cache model to recency lists (Spec.Lru), every request sequence, memory, set and way count. |
| C42 | Cache accounting is conserved | proved | induction over request sequences | Counters are 64-bit in the code and naturals in the model. |
| C43 | Locked scratchpad lines stay resident | partial | invariant; witnesses | Residency, bound and allocation proved. Status reports fail in two cases, witnessed: locking a locked line when the set is full reports failure; releasing an absent line reports the previous status. |
| C44 | Functional cache data is coherent with memory | partial | invariant over requests with memory; witnesses | Data cache coherent in every history whose first scratchpad request is not a release of an absent line (that reads an uninitialised status). Instruction cache coherent only while cached code is not overwritten; the mismatch is witnessed. |
| C45 | Write-back traffic is exact | proved | ghost history refinement |  |
| C46 | More ways never hurt (LRU inclusion) | partial | inclusion by induction over traces; witness | True for the update-on-insert policy; false for no_update, with a witness trace. |
| C47 | Region-of-interest statistics are passive and count only the region | partial | bisimulation with and without the region | Passivity proved. The region counted is [start, start+size] with the end included, witnessed. |
| C48 | Predictor tables are never indexed out of range and counters saturate | proved | invariant over all predictor trees | Every accepted configuration (combined nested to any depth), every run of branches and profiling switches: no out-of-range access or shift; tables have the configured sizes; counters in range; one counter per table moves by one, saturating, toward the outcome. The only other outcome is the read of an unset prediction: an ideal component of a combined predictor, or none while profiling (Ex.combined_ideal_uninit, Ex.none_counts_unset). Constructor UB outside the accepted set: Ex.gselect_wrap_shift, Ex.fold_zero_bits. |
| C49 | A prediction is always one of the two successors | partial | all predictor trees, any state | Proved for every predictor tree without none/ideal. False for a combined predictor with a none component (answers 0) and undefined with an ideal component; both accepted by the command line. |
| C50 | Ideal, none and static predictors behave as named | partial | induction over runs | ideal and static proved. none: reports every branch wrong, but counting while profiling compares with a member it never sets (undefined), witnessed. |
| C51 | Counter predictors learn and forget in bounded time | partial | refinement to an abstract counter | Learning proved for all five table-based classes, all widths. Tolerance proved on the taken side for n>=2, on the not-taken side for n>=3; false on the not-taken side for n=2 (witness). |
| C52 | The combined predictor selects the component that has been right | proved | selector refinement | combined_answer for any components. The others for components that are not ideal (an ideal component reads an unset prediction, Ex.combined_ideal_uninit). |
| C53 | Hardware models do not affect architectural results | partial | simulation between the builds | Every completed run of a build with any caches/divider and any predictor proposing one of the successors (or the ideal one, or none) is reproduced architecturally by the plain build, for all programs and step counts, unless it executes an answered scratchpad hint or a malformed branch; two builds therefore agree. bp_predicts shows the simulator predictors meet the hypothesis. The full claim is false of the code: malformed branch replaces the first handler instruction, a speculative fetch outside executable memory aborts, and without a predictor a branch to 0 reads an unset member (all witnessed). |
| C54 | Branch statistics are conserved | partial | induction over runs | All accepted configurations, all runs and profiling schedules that go through. The claim is false for none, which compares with an unset prediction at the first branch while profiling (none_counts_unset); its runs that go through have no such branch (none_run). |
| C55 | The branch pattern string is lossless | proved | inverse function |  |
| C56 | The divider model classifies every division exactly once | proved | refinement to operand history | All operand sequences, profiling schedules and entry counts from 1 to 2^32-1. The bit count is within 1..31 (stronger than 1..32). |
| C57 | Instruction profile totals equal profiled instructions | proved | induction over call streams | For every stream of calls and activations: each line exact, breakdowns and totals add up, final assertion holds, rest never wraps. Builds without RV32C need no compressed call (witnessed). |
| C58 | Callstack profiling never loses samples and never empties the stack | partial | conservation invariant; witnesses | Never empty: proved for all sequences. Conservation proved for clients with at most one control transfer per finished instruction and windows not opened or closed right after one; fails otherwise (four witnesses). |
| C59 | Profiling windows follow the requested start/stop points | partial | window history refinement; witnesses | Window history proved for all runs and match numbers up to 2^32 start points, exit-on-stop and profiled instruction count proved. Fails for a repeated start hint in single match mode and while stalled at the start pc (both witnessed). |
| C60 | Fusion analysis terminates and counts exactly the LEA pairs | partial | termination measure, equivalence; witnesses | Termination and completeness proved for all words. "Counted only if" is false: mul, 32-bit words whose bits look like c.add, and c.jalr are counted (witnesses); the exact equivalence is proved under Clear. |
| C61 | Peak stack usage is the true minimum | proved | induction | All histories of stack pointer values. |
| C62 | The ELF loader builds exactly the image the program headers describe | partial | induction over the segment table | image, permission table and acceptance proved for all tables; the no-out-of-bounds part is false for a segment whose end overflows 64 bits and for an empty segment at the end of RAM (witnesses) |
| C63 | Every retired instruction is profiled once, under its own name | partial | step theorem against a mnemonic table; witnesses | Exactly one entry per retired instruction and the naming of all RV32IM, Zbb, CSR, SIMD and cache-hint instructions are proved; naming of compressed instructions is proved but for two cases in which the code uses another line (a C.BNEZ not taken is counted as C.BEQZ, C.LUI x0 as C.NOP), both proved as disagreements. |
| C64 | The profiled callstack's innermost frame is the current function | proved | invariant | For every state with a well-formed map and nonempty stack (both proved for every run). |
| C65 | Nested calls are folded under the program's own stacks | partial | simulation with a call tree; witnesses | Proved for calls, tail calls, branches between functions and returns without direct recursion; recursion and repaired divergences fail (witnessed). |
| C66 | A predictor's answer is a function of the branches before | proved | refinement to a function of the past branches | every accepted configuration without none and ideal; refinement to a specification over the list of past branches |
| C67 | History predictors learn periodic branches | proved | invariant over a periodic stream, from C66 | bound history + period * largest counter value |
| C68 | A log record is the instruction that executed | partial | independent assembler; per-encoding text lemmas; witnesses | Proved for every instruction word whose operands are all printed, against an independent assembler. The full claim is false: fences with different operands print alike, the hint c.lui x0 prints as c.nop, and unused rs2 bits of dup, scp, vins and vext are not printed. The wording of traps and the SIMD lane dump are parameters. |
| C69 | Log notes state the instruction's effects truthfully | partial | frame lemma of the text plus invariant over histories; witnesses | Register and load notes proved for all instructions and histories. Store and CSR notes need the stream to adjust right, which holds as long as no instruction with destination x0 and a hexadecimal immediate was executed; after one, the full claim is false (a stored 1 is logged as 0x10000000). c.lwsp into sp notes a wrong address, c.lw omits it if bits 11:7 are 0. |
| C70 | The record of a trap claims no effect | partial | walk of the trap paths; witness | Proved for loads, stores, branches, ecall and ebreak. The full claim is false: a store of undefined width traps and its record claims a memory update. |
| C71 | The execution log does not change what a program does | proved | projection simulation over runs | For the modelled text; the text is computed from the state and never written back. |
| C72 | Register use counters count operands | partial | operand tables per encoding; induction over runs; witnesses | Proved for every instruction but SIMD shifts, VINS and the C.LUI hint, for single steps and whole runs. The full claim is false: a SIMD shift amount is counted as a register, VINS does not count its destination as a source, and a jump that traps on its target is counted although it does not retire. |
| C73 | The register trace has one entry per profiled instruction, about that instruction | partial | invariant on the pending entry over runs; witnesses | Proved for runs without traps. The full claim is false: after a jump that traps, the next entry carries its opcode and destination, and a zero written by LUI, AUIPC, a jump, a CSR or cache instruction is not flagged. |
| C74 | The instruction trace has one entry per profiled instruction, about that instruction | partial | event of each encoding; invariant on the pending access over runs; witnesses | Number, order and all fields but the access are proved for all runs, with the transfer flag missing for compressed branches to the next instruction (recorded as not taken). Accesses are proved for uncompressed loads and stores in runs where none is executed outside the window or traps. The full claim is false: compressed loads and stores show no access, and an access made before the window opens, or attempted by an instruction that trapped, is shown on the next entry. |
| C75 | The reported peak stack usage is the peak | partial | invariant on the minimum over runs; witness | Proved for all runs, for stack pointers above the first byte of main memory. The full claim is false: a stack pointer at the start of main memory (the stack completely full) is ignored. |
| C76 | The stack access counters count the accesses to the stack | partial | event of each encoding with register frames; counting over runs; witnesses | Proved but for accesses at the stack pointer itself, above main memory, and loads into the stack pointer. The full claim is false: an access at the stack pointer is not counted, lw sp is compared with the loaded value, and a store of undefined width is counted though it traps. |
| C77 | The samples of a performance event are the retired instructions of its class | partial | calls of each encoding; discipline of the calls over runs composed with the invariant of C58; witnesses | Recording is proved per step for every retired instruction; the reported totals for all runs without traps that do not reach the step limit, with windows that do not switch right after a control transfer. The full claim is false: trapping instructions count as retired, and transfers at traps, window edges, the end of the run and the step limit are doubled, leaked or dropped. |
| C78 | The end-of-run report tells how the program ended | partial | walk of the report; tohost invariant over runs; witnesses | Proved for every state whose run was ended by the program and, from reset, for every program of builds without profilers. The full claim is false: the early-exit option overwrites tohost of programs that ended normally, and a limit stop is reported as a failure of test 0. |
| C79 | A memory dump shows the memory and changes nothing | partial | induction over the dump loop; general non-termination; witnesses | Proved for readable word-multiple regions of main memory. The full claim is false: trailing bytes are dropped, undefined addresses trap, device reads have effects, unreadable segments abort, a region ending at the top of the address space never ends, and the dump is counted by the data cache. |
| C80 | A numeric option means the number written | partial | induction over numerals; inversion of the conversion; witnesses | Proved for every numeral that fits; what is accepted is characterised for every text. The full claim is false: numbers that do not fit are wrapped or end the simulator by an uncaught exception, trailing text is dropped and negative numbers are accepted. |
| C81 | Named options are resolved by their tables | proved | induction over tables and lists; tables by computation | The cache policy tables are not listed in the model; they go through the same functions. |
| C82 | The branch predictor built is the one the options describe | partial | composition of C80 and C81 through the construction; witness | Proved for all options whose numbers fit 8 bits; larger ones silently build a different predictor. |
| C83 | The hardware models see exactly the program's events | partial | calls of each encoding; frame lemma of every model function; induction over runs; witnesses | What the models are told is proved exactly for every run from reset. The claim itself is false: a word with the branch opcode and an undefined condition is shown to the predictor although it traps, and the instruction that hits the step limit is shown although it is not counted; the run theorem lists both, with exactly what they tell. |
| C84 | The divider's statistics describe the program's divisions | partial | refinement of the run to the calls of the divider; C56 over those | for every run from reset in which the models do not fail (C87), with profilers or without (then the statistics are on throughout); the claim fails at the step limit, where the last instruction is counted by the models but does not retire (C83) |
| C85 | The data cache's statistics describe the program's accesses | partial | refinement of the run to the requests of the data cache; C42 over those | for every run from reset in which the models do not fail (C87), with profilers or without (then the statistics are on throughout); the claim fails at the step limit, where the last instruction is counted by the models but does not retire (C83), and for the memory dump at the end of a run |
| C86 | The predictor's statistics describe the program's branches | partial | refinement of the run to the branch events of the predictors; C54 over those | for every run from reset in which the models do not fail (C87), with profilers or without (then the statistics are on throughout); the claim fails for malformed branches and at the step limit (C83) |
| C87 | The hardware models never fail in a run | partial | invariant of caches, predictors and divider over the calls of a run; witnesses | holds for every run from reset without self-modified lines, line-crossing fetches and early releases when the caches hold data, without early releases when they hold tags; each exception fails by a witness |
| C88 | The sparsity statistics count zero inputs and results | partial | calls of each encoding; counting over runs; witnesses | fails for C.ADDI, C.AND/OR/XOR/SUB, C.ADD, SRAI by zero, stores that trap and loads to x0, each with a theorem or witness; holds for all other encodings |
| C89 | branches.csv reports exactly the profiled branches and the predictors' right answers | partial | counts of each predictor refined to the answers of C66; loop invariant of the winner; ascending keys | every configuration without none, for which the report contains an unset value (run_all_uninit): the predefined list of the run-all option contains none; percentages are an unknown function of the two counts; runs of fewer than 2^32 events |
| C90 | hw_stats.json is well-formed and gives the counters | partial | the text is the layout of a tree whose reading by a small JSON reader is proved; counters from the run theorems C83-C86 | the digits of computed rates are unknown functions of the two counts; the number of instruction-cache references is tied to the run without profilers only (C102); with them, hits and misses add up to the references and memory traffic is a line per miss (icache_stats); for every run from reset (runs_total) |
| C91 | Reported sizes are those of the modelled structures | partial | counting the contents of the created object; induction on combined predictors | what is reported is proved for every accepted configuration up to 32-bit overflow; it is not the rounded-up size for all (size_rounded_down is a predefined predictor), tags and flags may be one byte over, ages are undercounted for ways that are not a power of two, the divider rounds down |
| C92 | inst_profile.json is well-formed and gives the instruction counts | proved | the text is the rendering of a tree the JSON reader is proved to read back; induction over runs for the counts | Reports are those of the core to the profiler; which they are for each instruction is C63. |
| C93 | The binary profiles read back as the profile | partial | records of equal size are found again (induction), fields by offset; induction over runs | The files read back as the entries made, for all entries. The entries themselves fall short of the claim as in C73 and C74 (stale fields after traps, zero flags, compressed accesses); two names differ between profile and script; padding bytes are open. The hardware status fields are read back, but which status they show is not modelled. |
| C94 | Options reach their settings | partial | induction over the assignments with distinct targets; the tables are checked in full for every build | The options part holds in every build. Two settings are read without being assigned in some builds (rf_names in the default build), and the exit status does not tell whether the program passed. Splitting the command line (cxxopts) is not modelled. |
| C95 | The output directory is the program's own and holds the outputs of its run | partial | decomposition of paths at the last separator and dot; the file list by cases | Name and files written as documented. Directories are distinct only for names without underscores, and are not cleared: both are false in general, with witnesses. |
| C96 | A callstack file reads back as the callstacks of the run | proved | induction on the text and the list of callstacks; an invariant of the profiler calls; induction on the symbol table | Two consequences of the format have witnesses: functions of one name are merged, and the script counts recursive functions once per frame. |
| C97 | The report of a run reads back as the final state, and the scripts judge the run rightly by it | partial | a calculus of what a chain of stream insertions adds, induction on the lines; occurrences of a string without line ends are inside one line | The texts read back in full. The verdict of the scripts is right unless the program leaves 0xf0000000 in tohost or prints the line itself: false in general, with witnesses. |
| C98 | The elements a SIMD instruction adds to the execution log are its operands and result | partial | a calculus of the words a chain of insertions adds; the loops unfolded into maps over the elements, then the lane theorems of C34-C39 | Every number denotes its element modulo the element width, and most are exact (table X1.exact / X2.exact). The sign or wrapping of the rest is wrong in the log itself, with witnesses. Undefined host arithmetic is excluded as in C36-C38. |
| C99 | Figures of the instruction summary | proved | sums over the lists of lines rewritten as counts over the entries; the lists compared with the names by enumeration of all lines | For every stream and every run from reset: each figure equals the number of entries whose printed name is of the class. The classes are given by names, independently of the lists of opcodes in the code. The percentages printed beside the figures are not modelled. |
| C100 | Which instruction fetches the instruction cache sees | partial | which calls each function makes is an invariant of the state; the fetches of a step from the cases of fetch and branch; induction over the run; counting by induction over the records | Runs of any length through retired instructions, interrupts, exceptions, waiting and the step that reaches the step limit (which executes an instruction that is not counted). Left out of the runs: branches with an undefined funct3 (C53) and predictions of odd addresses. |
| C101 | The execution log file can be read back | proved | the line as a concatenation, then the reader field by field; no text has a line break by a walk over the text of every instruction; induction over the run | For the file without the additions of log_hw_models, log_state and the callstack. The texts of traps are parameters without line breaks; those of SIMD lanes have none (simd_flat). |
| C102 | References of the instruction cache, retired instructions and mispredictions in the report | proved | the calls of the predictor and of the instruction cache of a step, from C100; the statistics of each model from those of its calls (C54, C86); induction over the run | Builds without profilers, with a predictor; runs in which every step retires and no model fails (the predictor none fails at the first branch, C54). icache_references_flow_partial goes beyond the statement, to runs with interrupts, exceptions, waiting and a step limit as in C100. |

## Disagreements between the properties and the code

Each is proved in Lean by a concrete witness (a program, a trace or a configuration on which the
model, which follows the code line by line, contradicts the property).

| property | disagreement | witness |
|----------|--------------|---------|
| C10, C17 | `JALR` with `funct3 != 0` raises illegal-instruction and still writes `rd` and jumps | `Ex.jalr_illegal_writes_rd` |
| C10 | a write to a read-only CSR, or `funct3` 4 on an implemented CSR, raises illegal-instruction after `rd` was written and the counters were synchronised | `Precise.Ex.ro_write_writes_rd`, `Precise.Ex.csr_f3_4_writes_rd` |
| C10, C17, C53 | a malformed branch (`funct3` 2, 3) traps and falls through into the predictor; with hardware models the next fetch takes the word at pc+4 instead of the handler | `Ex.bad_branch_skips_handler`, `HwInd.malformed_branch_steers` |
| C12 | MRET ORs MPIE into MIE, so MIE=1, MPIE=0 leaves interrupts on | `Ex.mret_keeps_mie` |
| C17 | shift immediates ignore the upper bits, scratchpad hints ignore rs2 | `Ex.slli_any_upper`, `Ex.scp_any_rs2` |
| C17 | reserved compressed encodings execute, trap twice or write after trapping | `Ex.c_addi4spn0_writes`, `Ex.c_zero_traps_twice`, `Ex.c_lui0_writes`, `Ex.c_shift32_executes`, `Ex.c_lwsp0_executes` |
| C19 | a write to a read-only CSR traps after writing `rd` | `csr_reject_partial` |
| C20 | SYSTEM `funct3=4` with `rs1 != 0` on a counter address loses one count | `Ex.funct3_4_loses_count` |
| C22 | `C.EBREAK` stops the simulation instead of raising a breakpoint | `Ex.c_ebreak_stops` |
| C23, C25 | the instruction executed at the step limit is not counted as retired, pc not advanced | `Ex.step_limit_uncounted`, `Ex.step_limit_minstret` |
| C25 | the step that leaves the profiling window with exit-on-stop counts no step | `Ex.window_exit_uncounted` |
| C11, C27 | `mtval` of a misaligned access to a device is relative to the device | `data_access_traps`, `trap_registers` |
| C26 | undefined C++ on any compiler: a SIMD pair instruction with rd = x31; fetching the last halfword of memory as a word; the fusion look-ahead of SLLI / C.SLLI at the end of memory; a branch predicted past the end of memory; a branch without a predictor | `Ex.ub_runs`, `pair_x31_always` |
| C26 | undefined in ISO C++: every SRAI (count is the whole immediate), register shifts by 32 or more, reserved shift encodings, MUL overflow, 16-bit SIMD products, signed WIDEN | `srai_always`, `Ex.ub_runs_iso` |
| C29 | only the first byte of an access is checked against segment permissions | `Ex.straddling_store`, `Ex.straddling_fetch` |
| C36 | `MULH16U`, `WMUL16U` overflow `int` (undefined) | `mulh16u_ub`, `wmul16u_ub` |
| C37 | `DOT16`, `DOT16U` overflow `int` (undefined) | `dot16_ub`, `dot16u_ub` |
| C38 | `WIDEN` shifts negative values left (undefined in C++17) | `widen8_ub`, `widen16u_ub` |
| C40 | a pair operation with `rd = x31` traps, then writes x31 and indexes past the register file | `pair_x31_ub` |
| C43 | locking a locked line in a full set reports failure; releasing an absent line reports the previous status | `Cache.lcl_again_fails`, `Cache.rel_absent_stale` |
| C44 | releasing an absent line as first hint reads an unset status; a fetch can read past a line; the instruction cache keeps overwritten code | `Cache.rel_first_uninit`, `Cache.fetch_past_line`, `MMI.self_modify_mismatch` |
| C46 | with `no_update` insertion more ways can miss more | `Cache.noUpdate_not_monotone` |
| C47 | the region of interest includes its end address | `Cache.roi_end_counted` |
| C48 | constructor: `gselect` bits wrap to a shift by 32 or more; folding zero bits divides by zero | `Bp.Ex.gselect_wrap_shift`, `Bp.Ex.fold_zero_bits` |
| C49, C52 | a combined predictor with a `none` component answers 0; with an ideal one reads an unset member | `Bp.Ex.combined_none_zero`, `Bp.Ex.combined_ideal_uninit` |
| C50, C54 | `none` counts against a prediction it never sets (also in `run all`) | `Bp.Ex.none_counts_unset`, `Bp.Ex.run_all_uninit` |
| C51 | 2-bit counters forget on the not-taken side after one exception | `Bp.Ex.two_bit_forgets` |
| C53 | a speculative fetch outside executable memory ends the simulation; without a predictor a branch to address 0 executes an unset member | `HwInd.speculation_aborts_program`, `HwInd.no_predictor_uninit` |
| C58 | samples are doubled or leak into/out of the window around calls | `Perf.trap_then_jump_doubles`, `Perf.call_leaks_in`, `Perf.call_leaks_out`, `Perf.limit_at_call_doubles` |
| C59 | a repeated start hint closes a single-match window; a stall at the start pc counts matches | `restart_closes`, `stall_counts` |
| C60 | the fusion analysis counts `mul`, `sll`, branches and `c.jalr` as LEA pairs | `Prof.mul_counted`, `Prof.sll_counted`, `Prof.branch_counted`, `Prof.jalr_counted` |
| C62 | a segment whose end overflows 64 bits, or an empty one at the end of RAM, is copied out of bounds | `Ex.elf_overflow_ub`, `Ex.elf_empty_end_ub` |
| C63 | a `C.BNEZ` not taken is counted as `C.BEQZ`, `C.LUI x0` as `C.NOP` | `bnez_miscounted`, `lui_hint_miscounted` |
| C65 | direct recursion and repaired divergences are attributed to other stacks | `Perf.recursion_kept`, `Perf.repair_misattributes` |
| C68 | fences with different operands print alike; `c.lui x0, imm` prints `c.nop` | `Dasm.log_fence_ambiguous`, `Dasm.log_c_lui_hint` |
| C69 | after an instruction with a hexadecimal immediate and destination x0 the stream stays left adjusted: a stored 1 is logged as 0x10000000; `c.lwsp sp` logs the address computed from the new sp; `c.lw` may omit its address | `Dasm.log_store_note_false`, `Dasm.log_c_lwsp_note_false`, `Dasm.log_c_lw_note_missing` |
| C70 | a store of undefined width traps but its record claims a memory update | `Dasm.log_trap_claims_store` |
| C72 | a SIMD shift amount is counted as register rs2; VINS does not count rd as a source; `c.lui x0` counts nothing; a jump that traps is counted | `ProfRf.usage_shift_amount`, `ProfRf.usage_vins`, `ProfRf.usage_lui_hint`, `ProfRf.Ex.usage_trap_counted` |
| C73 | after a jump that traps the next entry carries its opcode and destination; a zero written by `lui` is not flagged | `ProfRf.Ex.trace_stale`, `ProfRf.Ex.trace_lui_zero` |
| C74 | compressed loads and stores show no access; a taken `c.beqz`/`c.bnez` to the next instruction is recorded as not taken; an access made before the window opens or attempted by a trapping load shows on the next entry | `ProfTrace.Ex.trace_comp_access`, `trace_next_branch`, `trace_stale_window`, `trace_stale_trap` |
| C75 | a completely full stack (sp at the start of main memory) is not seen | `ProfTrace.Ex.peak_full` |
| C76 | an access at the stack pointer is not counted; `lw sp` is compared with the loaded value; a store of undefined width is counted though it traps | `ProfTrace.Ex.stack_at_sp`, `stack_load_sp`, `stack_undefined` |
| C77 | instructions that trap, stores and SIMD of undefined width are reported; jumps in a trap handler, at the edge of the window, at the end of the run and at the step limit are doubled, leaked or dropped | `PerfCore.trap_counted`, `undefined_store_counted`, `undefined_simd_counted`, `trap_jump_doubled`, `window_call_counted`, `last_call_dropped`, `limit_doubled` |
| C78 | with exit-on-profiling-stop the tohost value of a program that ended normally is overwritten; a limit stop is reported as failing test 0 | `Finish.early_exit_hides`, `limit_reported_failed` |
| C79 | the dump drops trailing bytes, reads undefined addresses as the last device and traps, takes UART input, aborts on unreadable segments, never ends at the top of the address space and is counted by the cache | `Finish.dump_tail`, `dump_nowhere`, `dump_device`, `dump_unreadable`, `dump_endless`, `dump_counted` |
| C80 | numbers that do not fit are wrapped or terminate the simulator, trailing text is dropped, negative numbers are accepted | `Args.wraps_8`, `wraps_32`, `overflow_uncaught`, `trailing_text`, `negative` |
| C82 | 263 address bits build a 7-bit predictor | `Args.pc_bits_wrap` |
| C83 | a word with the branch opcode and an undefined condition is shown to the predictor, under the trap handler's address | `HwCalls.Ex.malformed_branch_told` |
| C83 | the instruction that hits the step limit is shown to the hardware models but not counted | `HwCalls.Ex.limit_told` |
| C87 | a store to a fetched line leaves the instruction cache stale; the verifying build throws at the next fetch of it | `HwReal.Ex.own_code_throws` |
| C87 | a compressed instruction in the last two bytes of a line makes the instruction cache read past the end of the line | `HwReal.Ex.crossing_fetch_undefined` |
| C87 | a release hint as the first data access gives a status that was never set | `HwReal.Ex.early_release_undefined` |
| C88 | C.ADDI is always counted as sparse: its first operand is read through the 32-bit rs1 field | `Sparsity.sparsity_caddi`, `Sparsity.Ex.sparsity_caddi_witness` |
| C88 | C.AND, C.OR, C.XOR, C.SUB and C.ADD pass the number of the second register instead of its value | `Sparsity.sparsity_calu`, `Sparsity.sparsity_cadd`, `Sparsity.Ex.sparsity_csub_witness` |
| C88 | SRAI by zero is not counted as sparse: the immediate still has the bit that selects SRAI | `Sparsity.sparsity_srai`, `Sparsity.Ex.sparsity_srai_witness` |
| C88 | a store that traps is counted | `Sparsity.Ex.sparsity_trap` |
| C89 | the predefined combined predictor 3 has the number of `btfn` in the field of the address bits (bp_if.h:117), so its static component always predicts taken; the run-all list contains `none`, whose column counts comparisons with an unset value | `Bp.CsvEx.predefined_v3_not_btfn`, `Bp.Ex.run_all_uninit` |
| C91 | predictor sizes are commented "round up" but are rounded to the nearest byte (a predefined predictor is reported one byte short), sums wrap at 32 bits; tag and flag sizes are one byte over where the bits fill their bytes; ages of lines are undercounted for ways that are not a power of two; the divider's size is rounded down | `HwSize.Ex.size_rounded_down`, `HwSize.Ex.size_zero`, `HwSize.Ex.size_wraps`, `HwSize.Ex.tags_exceed`, `HwSize.Ex.age_does_not_fit`, `HwSize.Ex.divider_rounded_down`, `HwSize.Ex.divider_wraps` |
| C93 | the bytes that pad a `trace_entry` are never set, so equal runs may write different `trace.bin` files; the reader of `rf_trace.bin` names the cache hints `scp_lcl`/`scp_rel`, the profile `scp.lcl`/`scp.rel`; rows keep what C73, C74 say of stale fields | `ProfBin.Ex.padding_open`, `ProfBin.Ex.hint_name`, `ProfBin.Ex.stale_row` |
| C94 | without `DASM` (the default of src/Makefile) `cfg.rf_names` is never assigned, but `core::core` reads it and `--show_state` indexes the register names with it; with the hardware models and without the profilers `cfg.prof_show` is never assigned, but `core::finish` reads it; the exit status is 0 also when the program failed; the event names of `README.md` and `examples/ama-riscv-sim.help` are refused | `Main.rf_names_unset`, `Main.prof_show_unset`, `Main.status_run`, `Main.Ex.documented_events_refused` |
| C95 | programs in different places, with another extension or with underscores in their names share an output directory, and so does a tag that is part of another name; a directory used before is not cleared, so it keeps e.g. an old `trace.bin` beside new outputs | `OutDir.same_out_dir`, `OutDir.Ex.stale_trace` |
| C96 | functions of one name at different addresses (two `static` functions) are merged in the callstack files; the script's total for a function that calls itself counts its samples once per frame and can exceed the number of samples | `Perf.twins_merge`, `Perf.recursion_exceeds` |
| C97 | a run that ends with 0xf0000000 in `tohost` (e.g. at the step limit) is reported as failed, yet has the line by which the scripts take it for passed; so does any program that prints the line of success | `Report.Ex.false_early`, `Report.printed_pass` |
| C98 | the log shows the sum of `add`/`sub` and the shifted number of `widen` instead of the wrapped element, unsigned results for `mul`/`mulh` of signed operands, a signed result for `wmul16u`, operands of `srai` sign extended beyond the element, and signed operands for `vext*u` | `SimdText.add_unwrapped`, `widen_unwrapped`, `mul_unsigned`, `wmul_signed`, `srai_source`, `vext_source` |
| C99 | `c.nop` is not counted as a nop: the figure is that of the name `nop` alone | `Prof.figures_exact` (field `nop`) |

Properties marked `proved` are stated as in `properties.jsonl`; where a row above names one of them
(C11, C19, C27, C48, C52), the theorem gives the code's exact behaviour and the row records the
difference from the ISA manual or a configuration the simulator rejects.

## Not modelled

What `log_hw_models`, `log_state` and the callstack add to `exec.log`, the wording of traps in the log
(a parameter of the model), DPI/cosim glue, splitting the command line into options (cxxopts), ELF byte parsing (the
segment and symbol tables are inputs), formatting of statistics files, floating-point percentages
in reports, `std::chrono` timing, the sample stamps of trace entries under hardware models,
writing of the profilers' files.

## Trusted base

* The Lean 4.33.0 kernel.
* Axioms: only `propext`, `Classical.choice` and `Quot.sound`, as listed per theorem below.  No own
  axioms, no `sorry`, no `native_decide`, no `bv_decide`; `decide +kernel` is kernel reduction.
* That the hand-written model says what the cited lines say; x86-64 two's complement host, g++
  (`strict = false`) or the C++17 standard (`strict = true`).

## Axioms each claimed theorem depends on

* **none** (6): `Ama.Args.names_distinct`, `Ama.Ex.elf_empty_end_ub`, `Ama.Ex.elf_overflow_ub`, `Ama.Main.Ex.documented_events_refused`, `Ama.Main.options_documented`, `Ama.Main.status_run`
* **propext** (12): `Ama.Bp.CsvEx.predefined_v3_not_btfn`, `Ama.HwSize.Ex.divider_rounded_down`, `Ama.HwSize.Ex.divider_wraps`, `Ama.HwSize.Ex.size_wraps`, `Ama.HwSize.Ex.size_zero`, `Ama.Perf.call_leaks_in`, `Ama.Perf.call_leaks_out`, `Ama.Perf.limit_at_call_doubles`, `Ama.Perf.recursion_kept`, `Ama.Perf.repair_misattributes`, `Ama.Perf.trap_then_jump_doubles`, `Ama.ProfBin.access_code`
* **propext, Quot.sound** (125): `Ama.Args.help_exact`, `Ama.Args.resolve_iff`, `Ama.Args.space_skipped`, `Ama.Bp.Ex.combined_ideal_uninit`, `Ama.Bp.Ex.combined_none_zero`, `Ama.Bp.Ex.none_counts_unset`, `Ama.Bp.Ex.run_all_uninit`, `Ama.Bp.Ex.two_bit_forgets`, `Ama.Bp.bimodal_entry`, `Ama.Bp.combined_answer`, `Ama.Bp.none_run`, `Ama.Bp.predict_successor`, `Ama.Cache.fetch_past_line`, `Ama.Cache.lcl_again_fails`, `Ama.Cache.noUpdate_not_monotone`, `Ama.Cache.rel_absent_stale`, `Ama.Cache.rel_first_uninit`, `Ama.Cache.roi_end_counted`, `Ama.Dasm.note_value`, `Ama.Ex.c_ebreak_stops`, `Ama.Ex.funct3_4_loses_count`, `Ama.Ex.jalr_illegal_writes_rd`, `Ama.Ex.mret_keeps_mie`, `Ama.Ex.step_limit_minstret`, `Ama.Ex.step_limit_uncounted`, `Ama.Ex.straddling_fetch`, `Ama.Ex.straddling_store`, `Ama.Ex.ub_runs`, `Ama.Ex.ub_runs_iso`, `Ama.Ex.window_exit_uncounted`, `Ama.Finish.dump_counted`, `Ama.Finish.dump_device`, `Ama.Finish.dump_endless`, `Ama.Finish.dump_made`, `Ama.Finish.dump_nowhere`, `Ama.Finish.dump_tail`, `Ama.Finish.dump_unreadable`, `Ama.Finish.early_exit_hides`, `Ama.Finish.limit_reported_failed`, `Ama.Finish.no_dump`, `Ama.Finish.report_verdict_partial`, `Ama.HwCalls.Ex.limit_told`, `Ama.HwCalls.Ex.malformed_branch_told`, `Ama.HwFetch.count_fetches`, `Ama.HwInd.bp_predicts`, `Ama.HwInd.malformed_branch_steers`, `Ama.HwInd.no_predictor_uninit`, `Ama.HwInd.scp_answer_differs`, `Ama.HwInd.speculation_aborts_program`, `Ama.HwReal.Ex.crossing_fetch_undefined`, `Ama.HwReal.Ex.early_release_undefined`, `Ama.HwReal.Ex.own_code_throws`, `Ama.HwSize.Ex.age_does_not_fit`, `Ama.HwSize.Ex.size_rounded_down`, `Ama.HwSize.Ex.tags_exceed`, `Ama.HwSize.bp_size`, `Ama.HwSize.cache_sizes`, `Ama.HwSize.divider_size`, `Ama.HwSize.plus_one`, `Ama.MMI.self_modify_mismatch`, `Ama.Perf.callstack_never_empty`, `Ama.Perf.callstack_nonempty`, `Ama.Perf.saved_stacks`, `Ama.Perf.top_is_current`, `Ama.PerfCore.calls_transparent`, `Ama.PerfCore.events_other`, `Ama.PerfCore.last_call_dropped`, `Ama.PerfCore.limit_doubled`, `Ama.PerfCore.trap_counted`, `Ama.PerfCore.trap_jump_doubled`, `Ama.PerfCore.undefined_simd_counted`, `Ama.PerfCore.undefined_store_counted`, `Ama.PerfCore.window_call_counted`, `Ama.Precise.Ex.csr_f3_4_writes_rd`, `Ama.Precise.Ex.ro_write_writes_rd`, `Ama.Precise.trap_never_retires`, `Ama.Prof.branch_counted`, `Ama.Prof.jalr_counted`, `Ama.Prof.mul_counted`, `Ama.Prof.sll_counted`, `Ama.ProfBin.Ex.hint_name`, `Ama.ProfBin.Ex.stale_row`, `Ama.ProfBin.rf_file`, `Ama.ProfRf.Ex.trace_lui_zero`, `Ama.ProfRf.Ex.trace_stale`, `Ama.ProfRf.Ex.usage_trap_counted`, `Ama.ProfTrace.Ex.peak_full`, `Ama.ProfTrace.Ex.stack_at_sp`, `Ama.ProfTrace.Ex.stack_load_sp`, `Ama.ProfTrace.Ex.stack_undefined`, `Ama.ProfTrace.Ex.trace_comp_access`, `Ama.ProfTrace.Ex.trace_next_branch`, `Ama.ProfTrace.Ex.trace_stale_trap`, `Ama.ProfTrace.Ex.trace_stale_window`, `Ama.ProfTrace.trace_transparent`, `Ama.Sparsity.Ex.sparsity_caddi_witness`, `Ama.Sparsity.Ex.sparsity_csub_witness`, `Ama.Sparsity.Ex.sparsity_load_x0`, `Ama.Sparsity.Ex.sparsity_srai_witness`, `Ama.Sparsity.Ex.sparsity_trap`, `Ama.bin_image`, `Ama.const_csr`, `Ama.devices_disjoint`, `Ama.dot16_ub`, `Ama.dot16u_ub`, `Ama.elf_no_ub_partial`, `Ama.hostOk_iff`, `Ama.mpp_machine`, `Ama.mulh16u_ub`, `Ama.outcomes_exclusive`, `Ama.pair_x31_ub`, `Ama.read_denied_aborts`, `Ama.restart_closes`, `Ama.run_stopped`, `Ama.stall_counts`, `Ama.step_trichotomy_partial`, `Ama.trap_registers`, `Ama.uart_rx_rate`, `Ama.widen16u_ub`, `Ama.widen8_ub`, `Ama.wmul16u_ub`, `Ama.write_protected_run`, `Ama.write_ro_traps`, `Ama.x0_zero`, `Ama.x0_zero_step`
* **propext, Classical.choice, Quot.sound** (374): `Ama.Args.events_accepted`, `Ama.Args.negative`, `Ama.Args.no_digit_refused`, `Ama.Args.numeric_option_partial`, `Ama.Args.overflow_uncaught`, `Ama.Args.pc_bits_wrap`, `Ama.Args.predictor_described_partial`, `Ama.Args.resolveList_iff`, `Ama.Args.resolveList_set`, `Ama.Args.stoul_sound`, `Ama.Args.trailing_text`, `Ama.Args.wraps_32`, `Ama.Args.wraps_8`, `Ama.Bp.app_records`, `Ama.Bp.branches_csv_partial`, `Ama.Bp.combined_step`, `Ama.Bp.counter_refines`, `Ama.Bp.counters_step`, `Ama.Bp.credited`, `Ama.Bp.follows_first`, `Ama.Bp.follows_second`, `Ama.Bp.ideal_always_right`, `Ama.Bp.interface_in_range`, `Ama.Bp.learns_notTaken`, `Ama.Bp.learns_pattern`, `Ama.Bp.learns_taken`, `Ama.Bp.none_never_right_partial`, `Ama.Bp.pattern_injective`, `Ama.Bp.pattern_lossless`, `Ama.Bp.prediction_is_successor_partial`, `Ama.Bp.predictor_refines`, `Ama.Bp.runs_through`, `Ama.Bp.selector_refines`, `Ama.Bp.static_follows_rule`, `Ama.Bp.stats_conserved_partial`, `Ama.Bp.tables_in_range`, `Ama.Bp.tolerates_notTaken_partial`, `Ama.Bp.tolerates_taken`, `Ama.Bp.written_pattern_reads_back`, `Ama.Cache.access_allocates`, `Ama.Cache.cache_accounting`, `Ama.Cache.cache_contents`, `Ama.Cache.cache_is_lru`, `Ama.Cache.dcache_coherent_partial`, `Ama.Cache.dirty_iff_written`, `Ama.Cache.lcl_status_partial`, `Ama.Cache.locked_hits`, `Ama.Cache.locked_stays`, `Ama.Cache.locks_bounded`, `Ama.Cache.more_ways_hit_partial`, `Ama.Cache.more_ways_misses_partial`, `Ama.Cache.nothing_counted_off`, `Ama.Cache.perf_runs`, `Ama.Cache.rel_absent`, `Ama.Cache.rel_status_partial`, `Ama.Cache.roi_counts_closed`, `Ama.Cache.roi_counts_partial`, `Ama.Cache.roi_passive`, `Ama.Cache.writeback_exact`, `Ama.Cache.writethrough_exact`, `Ama.Dasm.line_reads`, `Ama.Dasm.log_c_lui_hint`, `Ama.Dasm.log_c_lw_note_missing`, `Ama.Dasm.log_c_lwsp_note_false`, `Ama.Dasm.log_fence_ambiguous`, `Ama.Dasm.log_file`, `Ama.Dasm.log_file_same`, `Ama.Dasm.log_injective_partial`, `Ama.Dasm.log_notes_c_lw_partial`, `Ama.Dasm.log_notes_c_lwsp_partial`, `Ama.Dasm.log_notes_c_store_partial`, `Ama.Dasm.log_notes_csr_partial`, `Ama.Dasm.log_notes_load`, `Ama.Dasm.log_notes_registers`, `Ama.Dasm.log_notes_store_partial`, `Ama.Dasm.log_numbers`, `Ama.Dasm.log_numbers_any`, `Ama.Dasm.log_reassembles_partial`, `Ama.Dasm.log_right`, `Ama.Dasm.log_run_same`, `Ama.Dasm.log_step_same`, `Ama.Dasm.log_store_note_false`, `Ama.Dasm.log_stream_clean`, `Ama.Dasm.log_trap_claims_store`, `Ama.Dasm.log_trap_only_partial`, `Ama.Div.class_unique`, `Ama.Div.classify_correct`, `Ama.Div.commonBits_correct`, `Ama.Div.counted_once`, `Ama.Div.stats_refine`, `Ama.Ex.bad_branch_skips_handler`, `Ama.Ex.c_addi4spn0_writes`, `Ama.Ex.c_lui0_writes`, `Ama.Ex.c_lwsp0_executes`, `Ama.Ex.c_shift32_executes`, `Ama.Ex.c_zero_traps_twice`, `Ama.Ex.scp_any_rs2`, `Ama.Ex.slli_any_upper`, `Ama.Finish.dump_exact_partial`, `Ama.Finish.run_verdict`, `Ama.HwCalls.hw_limit`, `Ama.HwCalls.hw_malformed`, `Ama.HwCalls.hw_other_partial`, `Ama.HwCalls.hw_run_partial`, `Ama.HwCalls.hw_step`, `Ama.HwCalls.hwrun_reset`, `Ama.HwCalls.hwrun_total`, `Ama.HwFetch.exc_fetches`, `Ama.HwFetch.flow_fetches_partial`, `Ama.HwFetch.int_fetches`, `Ama.HwFetch.quiet_fetches`, `Ama.HwFetch.ran_fetches`, `Ama.HwFetch.run_fetch_count`, `Ama.HwFetch.run_fetches`, `Ama.HwFetch.step_fetches`, `Ama.HwInd.hw_models_agree_partial`, `Ama.HwInd.hw_run_matches_plain_partial`, `Ama.HwReal.caches_go_through_partial`, `Ama.HwReal.dcache_stats_partial`, `Ama.HwReal.divider_stats_partial`, `Ama.HwReal.logged_total`, `Ama.HwReal.predictor_stats_partial`, `Ama.HwReal.runs_total`, `Ama.HwReal.tags_go_through_partial`, `Ama.HwRefs.count_flow`, `Ama.HwRefs.counts`, `Ama.HwRefs.icache_references`, `Ama.HwRefs.icache_references_flow_partial`, `Ama.HwRefs.refs_fetches`, `Ama.HwSize.ages_fit_partial`, `Ama.HwSize.bp_size_up_partial`, `Ama.HwStats.extremes`, `Ama.HwStats.hw_stats_rates`, `Ama.HwStats.hw_stats_reads`, `Ama.HwStats.hw_stats_run_partial`, `Ama.HwStats.icache_stats`, `Ama.HwStats.names_plain`, `Ama.HwStats.run_insts`, `Ama.MMI.icache_coherent_partial`, `Ama.Main.active_predictor`, `Ama.Main.looked_assigned_partial`, `Ama.Main.option_alone`, `Ama.Main.options_accepted`, `Ama.Main.options_reach`, `Ama.Main.path_needed`, `Ama.Main.path_suffices`, `Ama.Main.prof_show_unset`, `Ama.Main.rf_names_unset`, `Ama.OutDir.Ex.stale_trace`, `Ama.OutDir.after_run_partial`, `Ama.OutDir.config_events`, `Ama.OutDir.files_asked`, `Ama.OutDir.gen_spec`, `Ama.OutDir.out_dir_distinct_partial`, `Ama.OutDir.out_dir_name`, `Ama.OutDir.same_out_dir`, `Ama.Perf.callstack_nested_partial`, `Ama.Perf.folded_nested_partial`, `Ama.Perf.folded_reads`, `Ama.Perf.folded_totals`, `Ama.Perf.frame_is_symbol`, `Ama.Perf.recursion_exceeds`, `Ama.Perf.reported_total_partial`, `Ama.Perf.samples_conserved_partial`, `Ama.Perf.twins_merge`, `Ama.PerfCore.events_run_partial`, `Ama.PerfCore.events_step`, `Ama.Precise.traps_precise_partial`, `Ama.Prof.attack_ends`, `Ama.Prof.breakdown_sums`, `Ama.Prof.counted_iff_pair_partial`, `Ama.Prof.dropped_names`, `Ama.Prof.figures_exact`, `Ama.Prof.lines_exact`, `Ama.Prof.pair_counted`, `Ama.Prof.profile_counts`, `Ama.Prof.profile_reads`, `Ama.Prof.rest_exact`, `Ama.Prof.run_figures`, `Ama.Prof.total_exact`, `Ama.Prof.usage_exact`, `Ama.Prof.usage_mono`, `Ama.ProfBin.Ex.padding_open`, `Ama.ProfBin.rf_file_run_partial`, `Ama.ProfBin.trace_file`, `Ama.ProfBin.trace_file_run_partial`, `Ama.ProfBin.usage_file`, `Ama.ProfRf.trace_idle`, `Ama.ProfRf.trace_run_partial`, `Ama.ProfRf.trace_step`, `Ama.ProfRf.usage_lui_hint`, `Ama.ProfRf.usage_run_partial`, `Ama.ProfRf.usage_shift_amount`, `Ama.ProfRf.usage_step_any`, `Ama.ProfRf.usage_step_partial`, `Ama.ProfRf.usage_vins`, `Ama.ProfTrace.peak_run_partial`, `Ama.ProfTrace.stack_other_partial`, `Ama.ProfTrace.stack_run_partial`, `Ama.ProfTrace.stack_step_code`, `Ama.ProfTrace.stack_step_partial`, `Ama.ProfTrace.trace_access_partial`, `Ama.ProfTrace.trace_only`, `Ama.ProfTrace.trace_run_access_partial`, `Ama.ProfTrace.trace_run_partial`, `Ama.ProfTrace.trace_step_partial`, `Ama.Report.Ex.false_early`, `Ama.Report.check_reads`, `Ama.Report.csr_sorted`, `Ama.Report.judged`, `Ama.Report.judged_partial`, `Ama.Report.printed_pass`, `Ama.Report.state_reads`, `Ama.SimdText.add_unwrapped`, `Ama.SimdText.log_calm`, `Ama.SimdText.log_silent`, `Ama.SimdText.mul_unsigned`, `Ama.SimdText.record_ends`, `Ama.SimdText.simd_flat`, `Ama.SimdText.simd_log_partial`, `Ama.SimdText.simd_pair_log_partial`, `Ama.SimdText.srai_source`, `Ama.SimdText.vext_source`, `Ama.SimdText.widen_unwrapped`, `Ama.SimdText.wmul_signed`, `Ama.Sparsity.sparsity_cadd`, `Ama.Sparsity.sparsity_caddi`, `Ama.Sparsity.sparsity_calu`, `Ama.Sparsity.sparsity_run_partial`, `Ama.Sparsity.sparsity_srai`, `Ama.Sparsity.sparsity_step_any`, `Ama.Sparsity.sparsity_step_partial`, `Ama.addsub_sat`, `Ama.addsub_wrap`, `Ama.alu_strict`, `Ama.alu_value`, `Ama.bnez_miscounted`, `Ama.branch_step`, `Ama.ci_copcode`, `Ama.clockCore_mtip`, `Ama.compressed_refines_partial`, `Ama.computational_step`, `Ama.counter_from_reset_partial`, `Ama.counter_history_partial`, `Ama.counter_step`, `Ama.csr_absent`, `Ama.csr_reject_partial`, `Ama.csr_rmw`, `Ama.data_access_traps`, `Ama.decode_B`, `Ama.decode_CA`, `Ama.decode_CADDI16SP`, `Ama.decode_CADDI4SPN`, `Ama.decode_CB`, `Ama.decode_CBA`, `Ama.decode_CI`, `Ama.decode_CJ`, `Ama.decode_CLS`, `Ama.decode_CLWSP`, `Ama.decode_CR`, `Ama.decode_CSWSP`, `Ama.decode_I`, `Ama.decode_J`, `Ama.decode_R`, `Ama.decode_S`, `Ama.decode_U`, `Ama.denied_access_aborts`, `Ama.div_rem_recompose`, `Ama.dot_lanes`, `Ama.dot_strict`, `Ama.dup_lanes`, `Ama.elf_image`, `Ama.elf_regions`, `Ama.elf_valid`, `Ama.encodeC_half`, `Ama.env_calls_trap`, `Ama.exceptions_precise_partial`, `Ama.exit_on_stop`, `Ama.fields_I_complete`, `Ama.fields_R_complete`, `Ama.illegal_c_partial`, `Ama.illegal_raises_partial`, `Ama.inst_limit_partial`, `Ama.interrupt_taken`, `Ama.jump_step`, `Ama.kind_table`, `Ama.load_after_history`, `Ama.load_bytes_readable_partial`, `Ama.load_isolation`, `Ama.load_step`, `Ama.lui_hint_miscounted`, `Ama.meip_is_rxValid`, `Ama.memory_history`, `Ama.memory_map`, `Ama.minmax_lanes`, `Ama.misaligned_target_traps`, `Ama.mret_status_code`, `Ama.mret_step_partial`, `Ama.mtime_history`, `Ama.mtime_update`, `Ama.mtvec_mepc_aligned`, `Ama.mul_lanes`, `Ama.mul_strict`, `Ama.mulh_lanes`, `Ama.narrow_lanes`, `Ama.narrow_widen`, `Ama.no_interrupt_executes`, `Ama.no_ub_partial`, `Ama.nx_never_executes`, `Ama.only_pair_ub`, `Ama.pair_x31_always`, `Ama.pc_aligned`, `Ama.profiled_count`, `Ama.qnarrow_lanes`, `Ama.readonly_segment_never_changes_partial`, `Ama.retired_le_steps`, `Ama.retired_logged`, `Ama.retired_named`, `Ama.retired_named_c_partial`, `Ama.retired_named_csr`, `Ama.retired_named_scp`, `Ama.retired_named_x1`, `Ama.retired_named_x2`, `Ama.runBus_no_ub`, `Ama.run_profile_json`, `Ama.run_profiled`, `Ama.run_ub`, `Ama.rx_byte_is_last`, `Ama.shr_lanes`, `Ama.simd_pair_step_host`, `Ama.simd_pair_step_partial`, `Ama.simd_step`, `Ama.simd_step_host`, `Ama.simd_step_partial`, `Ama.simd_unique`, `Ama.slli_lanes`, `Ama.srai_always`, `Ama.step_limit_partial`, `Ama.step_refines`, `Ama.step_ub`, `Ama.stop_reasons`, `Ama.store_isolation`, `Ama.store_step`, `Ama.ticks_bounded`, `Ama.tohost_only_by_csr`, `Ama.tohost_stops`, `Ama.trapEntry_core`, `Ama.trap_mret_resumes`, `Ama.txp_involution`, `Ama.txp_lanes`, `Ama.uart_rx_history`, `Ama.uart_rx_kept`, `Ama.uart_store_ignored`, `Ama.uart_streams_grow`, `Ama.uart_tx_history`, `Ama.undefinedC_exec`, `Ama.undefined_exec`, `Ama.unretired_at_most_one`, `Ama.user_counters`, `Ama.vext_value`, `Ama.vext_vins`, `Ama.vext_vins_other`, `Ama.vins_lanes`, `Ama.wfi_idle_step`, `Ama.wfi_resumes`, `Ama.wfi_sleeps`, `Ama.wfi_stalls`, `Ama.wfi_time`, `Ama.wfi_timer_wakes`, `Ama.widen_lanes`, `Ama.widen_strict`, `Ama.window_partial`, `Ama.wmul_lanes`, `Ama.wmul_strict`
