import Verif.Model.Core
/-!
# Instruction profiler, fusion profiler, register file profiler

Model of `/repo/src/profilers/profiler.{h,cpp}`, `profiler_fusion.{h,cpp}` and `profiler_rf.{h,cpp}`.
64-bit counters are natural numbers.  The files are in `Model/ProfJson` and `Model/ProfBin`; the printed percentages are left out; the
clock source (`DPI` builds) is not modelled: one sample per instruction (defines.h:549 `DIFF 1`).
-/
namespace Ama.Prof

/-- profiler.h:25-107 `opc_g` -/
inductive OpG where
  | i_add | i_sub | i_sll | i_srl | i_sra | i_slt | i_sltu | i_xor | i_or | i_and | i_nop | i_addi | i_slli
  | i_srli | i_srai | i_slti | i_sltiu | i_xori | i_ori | i_andi | i_lb | i_lh | i_lw | i_lbu | i_lhu | i_sb
  | i_sh | i_sw | i_fence_i | i_fence | i_lui | i_auipc | i_ecall | i_ebreak | i_hint | i_mret | i_wfi
  | i_add16 | i_add8 | i_sub16 | i_sub8 | i_qadd16 | i_qadd16u | i_qadd8 | i_qadd8u | i_qsub16 | i_qsub16u
  | i_qsub8 | i_qsub8u | i_mul16 | i_mul8 | i_mulh16 | i_mulh16u | i_mulh8 | i_mulh8u | i_wmul16 | i_wmul16u
  | i_wmul8 | i_wmul8u | i_dot16 | i_dot16u | i_dot8 | i_dot8u | i_dot4 | i_dot4u | i_dot2 | i_dot2u
  | i_min16 | i_min16u | i_min8 | i_min8u | i_max16 | i_max16u | i_max8 | i_max8u | i_slli16 | i_slli8
  | i_srli16 | i_srli8 | i_srai16 | i_srai8 | i_widen16 | i_widen16u | i_widen8 | i_widen8u | i_widen4
  | i_widen4u | i_widen2 | i_widen2u | i_narrow32 | i_narrow16 | i_narrow8 | i_narrow4 | i_qnarrow32
  | i_qnarrow32u | i_qnarrow16 | i_qnarrow16u | i_qnarrow8 | i_qnarrow8u | i_qnarrow4 | i_qnarrow4u | i_txp16
  | i_txp8 | i_txp4 | i_txp2 | i_dup16 | i_dup8 | i_dup4 | i_dup2 | i_vins16 | i_vins8 | i_vins4 | i_vins2
  | i_vext16 | i_vext16u | i_vext8 | i_vext8u | i_vext4 | i_vext4u | i_vext2 | i_vext2u | i_scp_lcl
  | i_scp_rel | i_csrrw | i_csrrs | i_csrrc | i_csrrwi | i_csrrsi | i_csrrci | i_mul | i_mulh | i_mulhsu
  | i_mulhu | i_div | i_divu | i_rem | i_remu | i_max | i_maxu | i_min | i_minu | i_c_add | i_c_mv | i_c_and
  | i_c_or | i_c_xor | i_c_sub | i_c_addi | i_c_addi16sp | i_c_addi4spn | i_c_andi | i_c_srli | i_c_slli
  | i_c_srai | i_c_nop | i_c_lwsp | i_c_swsp | i_c_lw | i_c_sw | i_c_li | i_c_lui | i_c_ebreak
  deriving DecidableEq, Repr

/-- profiler.h:110-117 `opc_b` -/
inductive OpB where
  | i_beq | i_bne | i_blt | i_bge | i_bltu | i_bgeu | i_jalr | i_jal | i_c_j | i_c_jal | i_c_jr | i_c_jalr
  | i_c_beqz | i_c_bnez
  deriving DecidableEq, Repr

/-- profiler.h:25-107: the members of `opc_g` before `_count`, in order -/
def allG : List OpG := [
  .i_add, .i_sub, .i_sll, .i_srl, .i_sra, .i_slt, .i_sltu, .i_xor, .i_or, .i_and, .i_nop, .i_addi, .i_slli,
  .i_srli, .i_srai, .i_slti, .i_sltiu, .i_xori, .i_ori, .i_andi, .i_lb, .i_lh, .i_lw, .i_lbu, .i_lhu, .i_sb,
  .i_sh, .i_sw, .i_fence_i, .i_fence, .i_lui, .i_auipc, .i_ecall, .i_ebreak, .i_hint, .i_mret, .i_wfi,
  .i_add16, .i_add8, .i_sub16, .i_sub8, .i_qadd16, .i_qadd16u, .i_qadd8, .i_qadd8u, .i_qsub16, .i_qsub16u,
  .i_qsub8, .i_qsub8u, .i_mul16, .i_mul8, .i_mulh16, .i_mulh16u, .i_mulh8, .i_mulh8u, .i_wmul16, .i_wmul16u,
  .i_wmul8, .i_wmul8u, .i_dot16, .i_dot16u, .i_dot8, .i_dot8u, .i_dot4, .i_dot4u, .i_dot2, .i_dot2u,
  .i_min16, .i_min16u, .i_min8, .i_min8u, .i_max16, .i_max16u, .i_max8, .i_max8u, .i_slli16, .i_slli8,
  .i_srli16, .i_srli8, .i_srai16, .i_srai8, .i_widen16, .i_widen16u, .i_widen8, .i_widen8u, .i_widen4,
  .i_widen4u, .i_widen2, .i_widen2u, .i_narrow32, .i_narrow16, .i_narrow8, .i_narrow4, .i_qnarrow32,
  .i_qnarrow32u, .i_qnarrow16, .i_qnarrow16u, .i_qnarrow8, .i_qnarrow8u, .i_qnarrow4, .i_qnarrow4u, .i_txp16,
  .i_txp8, .i_txp4, .i_txp2, .i_dup16, .i_dup8, .i_dup4, .i_dup2, .i_vins16, .i_vins8, .i_vins4, .i_vins2,
  .i_vext16, .i_vext16u, .i_vext8, .i_vext8u, .i_vext4, .i_vext4u, .i_vext2, .i_vext2u, .i_scp_lcl,
  .i_scp_rel, .i_csrrw, .i_csrrs, .i_csrrc, .i_csrrwi, .i_csrrsi, .i_csrrci, .i_mul, .i_mulh, .i_mulhsu,
  .i_mulhu, .i_div, .i_divu, .i_rem, .i_remu, .i_max, .i_maxu, .i_min, .i_minu, .i_c_add, .i_c_mv, .i_c_and,
  .i_c_or, .i_c_xor, .i_c_sub, .i_c_addi, .i_c_addi16sp, .i_c_addi4spn, .i_c_andi, .i_c_srli, .i_c_slli,
  .i_c_srai, .i_c_nop, .i_c_lwsp, .i_c_swsp, .i_c_lw, .i_c_sw, .i_c_li, .i_c_lui, .i_c_ebreak]
/-- profiler.h:110-117: the members of `opc_b` before `_count`, in order -/
def allB : List OpB := [
  .i_beq, .i_bne, .i_blt, .i_bge, .i_bltu, .i_bgeu, .i_jalr, .i_jal, .i_c_j, .i_c_jal, .i_c_jr, .i_c_jalr,
  .i_c_beqz, .i_c_bnez]

/-- profiler.cpp:17-206: the entries the constructor sets, with whether the name starts with `c.` -/
def initG : List (OpG × Bool) := [
  (.i_add, false), (.i_sub, false), (.i_sll, false), (.i_srl, false), (.i_sra, false), (.i_slt, false),
  (.i_sltu, false), (.i_xor, false), (.i_or, false), (.i_and, false), (.i_nop, false), (.i_addi, false),
  (.i_slli, false), (.i_srli, false), (.i_srai, false), (.i_slti, false), (.i_sltiu, false),
  (.i_xori, false), (.i_ori, false), (.i_andi, false), (.i_hint, false), (.i_mret, false), (.i_wfi, false),
  (.i_lb, false), (.i_lh, false), (.i_lw, false), (.i_lbu, false), (.i_lhu, false), (.i_sb, false),
  (.i_sh, false), (.i_sw, false), (.i_fence_i, false), (.i_fence, false), (.i_lui, false), (.i_auipc, false),
  (.i_ecall, false), (.i_ebreak, false), (.i_add16, false), (.i_add8, false), (.i_sub16, false),
  (.i_sub8, false), (.i_qadd16, false), (.i_qadd8, false), (.i_qadd16u, false), (.i_qadd8u, false),
  (.i_qsub16, false), (.i_qsub8, false), (.i_qsub16u, false), (.i_qsub8u, false), (.i_mul16, false),
  (.i_mul8, false), (.i_mulh16, false), (.i_mulh16u, false), (.i_mulh8, false), (.i_mulh8u, false),
  (.i_wmul16, false), (.i_wmul16u, false), (.i_wmul8, false), (.i_wmul8u, false), (.i_dot16, false),
  (.i_dot16u, false), (.i_dot8, false), (.i_dot8u, false), (.i_dot4, false), (.i_dot4u, false),
  (.i_dot2, false), (.i_dot2u, false), (.i_min16, false), (.i_min8, false), (.i_min16u, false),
  (.i_min8u, false), (.i_max16, false), (.i_max8, false), (.i_max16u, false), (.i_max8u, false),
  (.i_slli16, false), (.i_slli8, false), (.i_srli16, false), (.i_srli8, false), (.i_srai16, false),
  (.i_srai8, false), (.i_widen16, false), (.i_widen16u, false), (.i_widen8, false), (.i_widen8u, false),
  (.i_widen4, false), (.i_widen4u, false), (.i_widen2, false), (.i_widen2u, false), (.i_narrow32, false),
  (.i_narrow16, false), (.i_narrow8, false), (.i_narrow4, false), (.i_qnarrow32, false),
  (.i_qnarrow32u, false), (.i_qnarrow16, false), (.i_qnarrow16u, false), (.i_qnarrow8, false),
  (.i_qnarrow8u, false), (.i_qnarrow4, false), (.i_qnarrow4u, false), (.i_txp16, false), (.i_txp8, false),
  (.i_txp4, false), (.i_txp2, false), (.i_dup16, false), (.i_dup8, false), (.i_dup4, false),
  (.i_dup2, false), (.i_vins16, false), (.i_vins8, false), (.i_vins4, false), (.i_vins2, false),
  (.i_vext16, false), (.i_vext16u, false), (.i_vext8, false), (.i_vext8u, false), (.i_vext4, false),
  (.i_vext4u, false), (.i_vext2, false), (.i_vext2u, false), (.i_scp_lcl, false), (.i_scp_rel, false),
  (.i_csrrw, false), (.i_csrrs, false), (.i_csrrc, false), (.i_csrrwi, false), (.i_csrrsi, false),
  (.i_csrrci, false), (.i_mul, false), (.i_mulh, false), (.i_mulhsu, false), (.i_mulhu, false),
  (.i_div, false), (.i_divu, false), (.i_rem, false), (.i_remu, false), (.i_max, false), (.i_maxu, false),
  (.i_min, false), (.i_minu, false), (.i_c_add, true), (.i_c_mv, true), (.i_c_and, true), (.i_c_or, true),
  (.i_c_xor, true), (.i_c_sub, true), (.i_c_addi, true), (.i_c_addi16sp, true), (.i_c_addi4spn, true),
  (.i_c_andi, true), (.i_c_srli, true), (.i_c_slli, true), (.i_c_srai, true), (.i_c_nop, true),
  (.i_c_lwsp, true), (.i_c_swsp, true), (.i_c_lw, true), (.i_c_sw, true), (.i_c_li, true), (.i_c_lui, true),
  (.i_c_ebreak, true)]
/-- profiler.cpp:218-233 -/
def initB : List (OpB × Bool) := [
  (.i_beq, false), (.i_bne, false), (.i_blt, false), (.i_bge, false), (.i_bltu, false), (.i_bgeu, false),
  (.i_jalr, false), (.i_jal, false), (.i_c_j, true), (.i_c_jal, true), (.i_c_jr, true), (.i_c_jalr, true),
  (.i_c_beqz, true), (.i_c_bnez, true)]

/-- profiler.cpp:17-206: the names the constructor gives the entries, as reported -/
def OpG.name : OpG → String
  | .i_add => "add" | .i_sub => "sub" | .i_sll => "sll" | .i_srl => "srl" | .i_sra => "sra" | .i_slt => "slt"
  | .i_sltu => "sltu" | .i_xor => "xor" | .i_or => "or" | .i_and => "and" | .i_nop => "nop"
  | .i_addi => "addi" | .i_slli => "slli" | .i_srli => "srli" | .i_srai => "srai" | .i_slti => "slti"
  | .i_sltiu => "sltiu" | .i_xori => "xori" | .i_ori => "ori" | .i_andi => "andi" | .i_hint => "hint"
  | .i_mret => "mret" | .i_wfi => "wfi" | .i_lb => "lb" | .i_lh => "lh" | .i_lw => "lw" | .i_lbu => "lbu"
  | .i_lhu => "lhu" | .i_sb => "sb" | .i_sh => "sh" | .i_sw => "sw" | .i_fence_i => "fence_i"
  | .i_fence => "fence" | .i_lui => "lui" | .i_auipc => "auipc" | .i_ecall => "ecall" | .i_ebreak => "ebreak"
  | .i_add16 => "add16" | .i_add8 => "add8" | .i_sub16 => "sub16" | .i_sub8 => "sub8" | .i_qadd16 => "qadd16"
  | .i_qadd8 => "qadd8" | .i_qadd16u => "qadd16u" | .i_qadd8u => "qadd8u" | .i_qsub16 => "qsub16"
  | .i_qsub8 => "qsub8" | .i_qsub16u => "qsub16u" | .i_qsub8u => "qsub8u" | .i_mul16 => "mul16"
  | .i_mul8 => "mul8" | .i_mulh16 => "mulh16" | .i_mulh16u => "mulh16u" | .i_mulh8 => "mulh8"
  | .i_mulh8u => "mulh8u" | .i_wmul16 => "wmul16" | .i_wmul16u => "wmul16u" | .i_wmul8 => "wmul8"
  | .i_wmul8u => "wmul8u" | .i_dot16 => "dot16" | .i_dot16u => "dot16u" | .i_dot8 => "dot8"
  | .i_dot8u => "dot8u" | .i_dot4 => "dot4" | .i_dot4u => "dot4u" | .i_dot2 => "dot2" | .i_dot2u => "dot2u"
  | .i_min16 => "min16" | .i_min8 => "min8" | .i_min16u => "min16u" | .i_min8u => "min8u"
  | .i_max16 => "max16" | .i_max8 => "max8" | .i_max16u => "max16u" | .i_max8u => "max8u"
  | .i_slli16 => "slli16" | .i_slli8 => "slli8" | .i_srli16 => "srli16" | .i_srli8 => "srli8"
  | .i_srai16 => "srai16" | .i_srai8 => "srai8" | .i_widen16 => "widen16" | .i_widen16u => "widen16u"
  | .i_widen8 => "widen8" | .i_widen8u => "widen8u" | .i_widen4 => "widen4" | .i_widen4u => "widen4u"
  | .i_widen2 => "widen2" | .i_widen2u => "widen2u" | .i_narrow32 => "narrow32" | .i_narrow16 => "narrow16"
  | .i_narrow8 => "narrow8" | .i_narrow4 => "narrow4" | .i_qnarrow32 => "qnarrow32"
  | .i_qnarrow32u => "qnarrow32u" | .i_qnarrow16 => "qnarrow16" | .i_qnarrow16u => "qnarrow16u"
  | .i_qnarrow8 => "qnarrow8" | .i_qnarrow8u => "qnarrow8u" | .i_qnarrow4 => "qnarrow4"
  | .i_qnarrow4u => "qnarrow4u" | .i_txp16 => "txp16" | .i_txp8 => "txp8" | .i_txp4 => "txp4"
  | .i_txp2 => "txp2" | .i_dup16 => "dup16" | .i_dup8 => "dup8" | .i_dup4 => "dup4" | .i_dup2 => "dup2"
  | .i_vins16 => "vins16" | .i_vins8 => "vins8" | .i_vins4 => "vins4" | .i_vins2 => "vins2"
  | .i_vext16 => "vext16" | .i_vext16u => "vext16u" | .i_vext8 => "vext8" | .i_vext8u => "vext8u"
  | .i_vext4 => "vext4" | .i_vext4u => "vext4u" | .i_vext2 => "vext2" | .i_vext2u => "vext2u"
  | .i_scp_lcl => "scp.lcl" | .i_scp_rel => "scp.rel" | .i_csrrw => "csrrw" | .i_csrrs => "csrrs"
  | .i_csrrc => "csrrc" | .i_csrrwi => "csrrwi" | .i_csrrsi => "csrrsi" | .i_csrrci => "csrrci"
  | .i_mul => "mul" | .i_mulh => "mulh" | .i_mulhsu => "mulhsu" | .i_mulhu => "mulhu" | .i_div => "div"
  | .i_divu => "divu" | .i_rem => "rem" | .i_remu => "remu" | .i_max => "max" | .i_maxu => "maxu"
  | .i_min => "min" | .i_minu => "minu" | .i_c_add => "c.add" | .i_c_mv => "c.mv" | .i_c_and => "c.and"
  | .i_c_or => "c.or" | .i_c_xor => "c.xor" | .i_c_sub => "c.sub" | .i_c_addi => "c.addi"
  | .i_c_addi16sp => "c.addi16sp" | .i_c_addi4spn => "c.addi4spn" | .i_c_andi => "c.andi"
  | .i_c_srli => "c.srli" | .i_c_slli => "c.slli" | .i_c_srai => "c.srai" | .i_c_nop => "c.nop"
  | .i_c_lwsp => "c.lwsp" | .i_c_swsp => "c.swsp" | .i_c_lw => "c.lw" | .i_c_sw => "c.sw" | .i_c_li => "c.li"
  | .i_c_lui => "c.lui" | .i_c_ebreak => "c.ebreak"
/-- profiler.cpp:218-233 -/
def OpB.name : OpB → String
  | .i_beq => "beq" | .i_bne => "bne" | .i_blt => "blt" | .i_bge => "bge" | .i_bltu => "bltu"
  | .i_bgeu => "bgeu" | .i_jalr => "jalr" | .i_jal => "jal" | .i_c_j => "c.j" | .i_c_jal => "c.jal"
  | .i_c_jr => "c.jr" | .i_c_jalr => "c.jalr" | .i_c_beqz => "c.beqz" | .i_c_bnez => "c.bnez"

/-- profiler.h:349-358 `comp_opcs_alu` -/
def compOpcsAlu : List OpG := [
  .i_c_add, .i_c_mv, .i_c_and, .i_c_or, .i_c_xor, .i_c_sub, .i_c_addi, .i_c_addi16sp, .i_c_addi4spn,
  .i_c_andi, .i_c_srli, .i_c_slli, .i_c_srai, .i_c_nop, .i_c_lwsp, .i_c_swsp, .i_c_lw, .i_c_sw, .i_c_li,
  .i_c_lui, .i_c_ebreak]
/-- profiler.h:388-392 `load_opcs` -/
def loadOpcs : List OpG := [
  .i_lb, .i_lh, .i_lw, .i_lbu, .i_lhu, .i_c_lw, .i_c_lwsp]
/-- profiler.h:394-398 `store_opcs` -/
def storeOpcs : List OpG := [
  .i_sb, .i_sh, .i_sw, .i_c_sw, .i_c_swsp]
/-- profiler.h:400-402 `mul_opcs` -/
def mulOpcs : List OpG := [
  .i_mul, .i_mulh, .i_mulhsu, .i_mulhu]
/-- profiler.h:404-406 `div_opcs` -/
def divOpcs : List OpG := [
  .i_div, .i_divu, .i_rem, .i_remu]
/-- profiler.h:408-425 `alu_opcs` -/
def aluOpcs : List OpG := [
  .i_add, .i_sub, .i_sll, .i_srl, .i_sra, .i_slt, .i_sltu, .i_xor, .i_or, .i_and, .i_addi, .i_slli, .i_srli,
  .i_srai, .i_slti, .i_sltiu, .i_xori, .i_ori, .i_andi, .i_lui, .i_auipc, .i_c_add, .i_c_sub, .i_c_mv,
  .i_c_addi16sp, .i_c_addi4spn, .i_c_and, .i_c_or, .i_c_xor, .i_c_addi, .i_c_andi, .i_c_srli, .i_c_slli,
  .i_c_srai, .i_c_li, .i_c_lui]
/-- profiler.h:427-429 `zbb_opcs` -/
def zbbOpcs : List OpG := [
  .i_max, .i_maxu, .i_min, .i_minu]
/-- profiler.h:431-434 `dot_c_opcs` -/
def dotCOpcs : List OpG := [
  .i_dot16, .i_dot8, .i_dot4, .i_dot2, .i_dot16u, .i_dot8u, .i_dot4u, .i_dot2u]
/-- profiler.h:436-444 `alu_c_opcs` -/
def aluCOpcs : List OpG := [
  .i_add16, .i_add8, .i_sub16, .i_sub8, .i_qadd16, .i_qadd16u, .i_qadd8, .i_qadd8u, .i_qsub16, .i_qsub16u,
  .i_qsub8, .i_qsub8u, .i_min16, .i_min16u, .i_min8, .i_min8u, .i_max16, .i_max16u, .i_max8, .i_max8u,
  .i_slli16, .i_slli8, .i_srli16, .i_srli8, .i_srai16, .i_srai8]
/-- profiler.h:446-450 `mul_c_opcs` -/
def mulCOpcs : List OpG := [
  .i_mul16, .i_mul8, .i_mulh16, .i_mulh16u, .i_mulh8, .i_mulh8u, .i_wmul16, .i_wmul16u, .i_wmul8, .i_wmul8u]
/-- profiler.h:452-457 `widen_c_opcs` -/
def widenCOpcs : List OpG := [
  .i_widen16, .i_widen16u, .i_widen8, .i_widen8u, .i_widen4, .i_widen4u, .i_widen2, .i_widen2u]
/-- profiler.h:459-468 `narrow_c_opcs` -/
def narrowCOpcs : List OpG := [
  .i_narrow32, .i_narrow16, .i_narrow8, .i_narrow4, .i_qnarrow32, .i_qnarrow32u, .i_qnarrow16, .i_qnarrow16u,
  .i_qnarrow8, .i_qnarrow8u, .i_qnarrow4, .i_qnarrow4u]
/-- profiler.h:470-472 `txp_c_opcs` -/
def txpCOpcs : List OpG := [
  .i_txp16, .i_txp8, .i_txp4, .i_txp2]
/-- profiler.h:474-476 `dup_c_opcs` -/
def dupCOpcs : List OpG := [
  .i_dup16, .i_dup8, .i_dup4, .i_dup2]
/-- profiler.h:478-480 `vins_c_opcs` -/
def vinsCOpcs : List OpG := [
  .i_vins16, .i_vins8, .i_vins4, .i_vins2]
/-- profiler.h:482-485 `vext_c_opcs` -/
def vextCOpcs : List OpG := [
  .i_vext16, .i_vext16u, .i_vext8, .i_vext8u, .i_vext4, .i_vext4u, .i_vext2, .i_vext2u]
/-- profiler.h:487-489 `scp_c_opcs` -/
def scpCOpcs : List OpG := [
  .i_scp_lcl, .i_scp_rel]
/-- profiler.h:360-363 `comp_opcs_b` -/
def compOpcsB : List OpB := [
  .i_c_j, .i_c_jal, .i_c_jr, .i_c_jalr, .i_c_beqz, .i_c_bnez]
/-- profiler.h:367-372 `branch_opcs` -/
def branchOpcs : List OpB := [
  .i_beq, .i_bne, .i_blt, .i_bge, .i_bltu, .i_bgeu, .i_c_beqz, .i_c_bnez]
/-- profiler.h:375-379 `jal_opcs` -/
def jalOpcs : List OpB := [
  .i_jal, .i_c_j, .i_c_jal]
/-- profiler.h:382-386 `jalr_opcs` -/
def jalrOpcs : List OpB := [
  .i_jalr, .i_c_jr, .i_c_jalr]

/-- profiler.h:138-144 `inst_prof_b` -/
structure CntB where
  taken : Nat := 0
  takenFwd : Nat := 0
  notTaken : Nat := 0
  notTakenFwd : Nat := 0

/-- profiler.h:296-319.  `none` stands for a member the constructor leaves unset: `active` until `set_active`,
and array entries without a `P_INIT` line (empty name, count not set).  The trace vector is its length. -/
structure IProf where
  active : Option Bool
  instCnt : Nat
  inst : W
  g : OpG → Option Nat
  b : OpB → Option CntB
  minSp : W
  stackLoad : Nat
  stackStore : Nat

/-- profiler.cpp:3-237 constructor; profiler.h:319 `min_sp = base_addr + mem_size` -/
def IProf.make : IProf where
  active := none
  instCnt := 0
  inst := 0#32
  g := fun o => if initG.any (fun x => x.1 == o) then some 0 else none
  b := fun o => if initB.any (fun x => x.1 == o) then some {} else none
  minSp := 0x80020000#32
  stackLoad := 0
  stackStore := 0

/-- profiler.h:340 `set_active` -/
def IProf.setActive (p : IProf) (on : Bool) : IProf := { p with active := some on }
/-- profiler.h:324 `new_inst` -/
def IProf.newInst (p : IProf) (w : W) : IProf := { p with inst := w }

/-- `prof_g_arr[opc].count += 1` -/
def IProf.bumpG (p : IProf) (o : OpG) : Res IProf :=
  match p.g o with
  | none => .ub .uninit
  | some n => .ok { p with g := upd p.g o (some (n + 1)) }

/-- profiler.cpp:250-267 `log_inst(opc_g)`, `inc = 1` -/
def IProf.logG (rv32c : Bool) (p : IProf) (o : OpG) : Res IProf :=
  match p.active with
  | none => .ub .uninit
  | some false => .ok p
  | some true =>
    let p := { p with instCnt := p.instCnt + 1 }
    if p.inst = 0x13#32 then p.bumpG .i_nop
    else if rv32c && p.inst &&& 0xFFFF#32 = 0x1#32 then p.bumpG .i_c_nop
    else if p.inst = 0x01002013#32 || p.inst = 0x01102013#32 then p.bumpG .i_hint
    else p.bumpG o

/-- profiler.cpp:269-284 `log_inst(opc_b)`, `inc = 1` -/
def IProf.logB (p : IProf) (o : OpB) (taken fwd : Bool) : Res IProf :=
  match p.active with
  | none => .ub .uninit
  | some false => .ok p
  | some true =>
    let p := { p with instCnt := p.instCnt + 1 }
    match p.b o with
    | none => .ub .uninit
    | some c =>
      let c := if taken
        then { c with taken := c.taken + 1, takenFwd := if fwd then c.takenFwd + 1 else c.takenFwd }
        else { c with notTaken := c.notTaken + 1, notTakenFwd := if fwd then c.notTakenFwd + 1 else c.notTakenFwd }
      .ok { p with b := upd p.b o (some c) }

/-- profiler.cpp:286-293 `track_sp` -/
def IProf.trackSp (p : IProf) (sp : W) : IProf :=
  if 0x80000000#32 < sp ∧ sp < p.minSp then { p with minSp := sp } else p

/-- profiler.h:334-339, 126-127 `log_stack_access_load`, `log_stack_access_store` -/
def IProf.stackAccess (p : IProf) (store inRange : Bool) : Res IProf :=
  match p.active with
  | none => .ub .uninit
  | some false => .ok p
  | some true =>
    let k := if inRange then 1 else 0
    .ok (if store then { p with stackStore := p.stackStore + k } else { p with stackLoad := p.stackLoad + k })

/-- profiler.cpp:328 and PROF_JSON_ENTRY_B (profiler.h:12-23): what is printed for one branch opcode; the
subtractions are of unsigned 64-bit numbers, on which natural subtraction agrees unless it would wrap -/
structure RepB where
  count : Nat
  taken : Nat
  takenFwd : Nat
  takenBwd : Nat
  notTaken : Nat
  notTakenFwd : Nat
  notTakenBwd : Nat
/-- profiler.h:12-23 -/
def CntB.rep (c : CntB) : RepB :=
  { count := c.taken + c.notTaken, taken := c.taken, takenFwd := c.takenFwd, takenBwd := c.taken - c.takenFwd
    notTaken := c.notTaken, notTakenFwd := c.notTakenFwd, notTakenBwd := c.notTaken - c.notTakenFwd }

/-- the count in an entry; entries without a name are skipped (profiler.cpp:302, 314) -/
def IProf.cntG (p : IProf) (o : OpG) : Nat := (p.g o).getD 0
/-- the counts in an entry -/
def IProf.cntB (p : IProf) (o : OpB) : CntB := (p.b o).getD {}
/-- profiler.h:197-222, 349-490: sum over one of the opcode lists -/
def IProf.sumG (p : IProf) (l : List OpG) : Nat := (l.map p.cntG).sum
/-- sum of `count_taken + count_not_taken` -/
def IProf.sumB (p : IProf) (l : List OpB) : Nat := (l.map fun o => (p.cntB o).taken + (p.cntB o).notTaken).sum
/-- sum of `count_taken` -/
def IProf.sumT (p : IProf) (l : List OpB) : Nat := (l.map fun o => (p.cntB o).taken).sum

/-- name starts with `c.` -/
def dotG (o : OpG) : Bool := initG.any (fun x => x.1 == o && x.2)
/-- name starts with `c.` -/
def dotB (o : OpB) : Bool := initB.any (fun x => x.1 == o && x.2)

/-- profiler.cpp:301-326: `cnt.tot`; without `RV32C` the entries whose name starts with `c.` are skipped -/
def IProf.total (rv32c : Bool) (p : IProf) : Nat :=
  p.sumG (allG.filter fun o => rv32c || !dotG o) + p.sumB (allB.filter fun o => rv32c || !dotB o)

/-- profiler.cpp:295-383: the printed summary (profiler.h:197-222 `cnt_t`, 223-233).  `rest` is unsigned 64-bit
subtraction in the code; here an integer. -/
structure Summary where
  tot : Nat
  comp : Nat
  branch : Nat
  jal : Nat
  jalr : Nat
  mem : Nat
  alu : Nat
  mul : Nat
  div : Nat
  zbb : Nat
  dot : Nat
  aluC : Nat
  mulC : Nat
  widen : Nat
  narrow : Nat
  txp : Nat
  dup : Nat
  vins : Nat
  vext : Nat
  scp : Nat
  nop : Nat
  rest : Int
  maxSp : W

/-- profiler.cpp:295-383 -/
def IProf.summary (rv32c : Bool) (p : IProf) : Summary :=
  let tot := p.total rv32c
  let mem := p.sumG loadOpcs + p.sumG storeOpcs
  { tot := tot, mem := mem
    comp := p.sumG compOpcsAlu + p.sumB compOpcsB
    branch := p.sumB branchOpcs, jal := p.sumT jalOpcs, jalr := p.sumT jalrOpcs
    alu := p.sumG aluOpcs, mul := p.sumG mulOpcs, div := p.sumG divOpcs, zbb := p.sumG zbbOpcs
    dot := p.sumG dotCOpcs, aluC := p.sumG aluCOpcs, mulC := p.sumG mulCOpcs, widen := p.sumG widenCOpcs
    narrow := p.sumG narrowCOpcs, txp := p.sumG txpCOpcs, dup := p.sumG dupCOpcs, vins := p.sumG vinsCOpcs
    vext := p.sumG vextCOpcs, scp := p.sumG scpCOpcs, nop := p.cntG .i_nop
    rest := (tot : Int) - p.cntG .i_nop - p.sumB branchOpcs - p.sumT jalOpcs - p.sumT jalrOpcs - mem
      - p.sumG mulOpcs - p.sumG divOpcs - p.sumG aluOpcs - p.sumG zbbOpcs - p.sumG dotCOpcs - p.sumG aluCOpcs
      - p.sumG mulCOpcs - p.sumG widenCOpcs - p.sumG narrowCOpcs - p.sumG txpCOpcs - p.sumG dupCOpcs
      - p.sumG vinsCOpcs - p.sumG vextCOpcs - p.sumG scpCOpcs
    maxSp := 0x80020000#32 - p.minSp }

/-! ## The core's calls -/

/-- a call of `log_inst` -/
inductive Call where | g (o : OpG) | b (o : OpB) (taken fwd : Bool)
  deriving DecidableEq

/-- the `op` token of the arms of `d_custom_ext` (core.cpp:804-1003); `none` for widths no arm has -/
def simdG : Simd.Op → Option OpG
  | .addSub 16 true false false => some .i_add16 | .addSub 8 true false false => some .i_add8
  | .addSub 16 true true false => some .i_sub16 | .addSub 8 true true false => some .i_sub8
  | .addSub 16 true false true => some .i_qadd16 | .addSub 16 false false true => some .i_qadd16u
  | .addSub 8 true false true => some .i_qadd8 | .addSub 8 false false true => some .i_qadd8u
  | .addSub 16 true true true => some .i_qsub16 | .addSub 16 false true true => some .i_qsub16u
  | .addSub 8 true true true => some .i_qsub8 | .addSub 8 false true true => some .i_qsub8u
  | .mul 16 true false => some .i_mul16 | .mul 8 true false => some .i_mul8
  | .mul 16 true true => some .i_mulh16 | .mul 16 false true => some .i_mulh16u
  | .mul 8 true true => some .i_mulh8 | .mul 8 false true => some .i_mulh8u
  | .wmul 16 true => some .i_wmul16 | .wmul 16 false => some .i_wmul16u
  | .wmul 8 true => some .i_wmul8 | .wmul 8 false => some .i_wmul8u
  | .dot 16 true => some .i_dot16 | .dot 16 false => some .i_dot16u
  | .dot 8 true => some .i_dot8 | .dot 8 false => some .i_dot8u
  | .dot 4 true => some .i_dot4 | .dot 4 false => some .i_dot4u
  | .dot 2 true => some .i_dot2 | .dot 2 false => some .i_dot2u
  | .minMax 16 true false => some .i_min16 | .minMax 16 false false => some .i_min16u
  | .minMax 8 true false => some .i_min8 | .minMax 8 false false => some .i_min8u
  | .minMax 16 true true => some .i_max16 | .minMax 16 false true => some .i_max16u
  | .minMax 8 true true => some .i_max8 | .minMax 8 false true => some .i_max8u
  | .shift 16 false true => some .i_slli16 | .shift 8 false true => some .i_slli8
  | .shift 16 false false => some .i_srli16 | .shift 16 true false => some .i_srai16
  | .shift 8 false false => some .i_srli8 | .shift 8 true false => some .i_srai8
  | .widen 8 true => some .i_widen8 | .widen 8 false => some .i_widen8u
  | .widen 4 true => some .i_widen4 | .widen 4 false => some .i_widen4u
  | .widen 2 true => some .i_widen2 | .widen 2 false => some .i_widen2u
  | .widen 16 true => some .i_widen16 | .widen 16 false => some .i_widen16u
  | .narrow 32 false false => some .i_narrow32 | .narrow 16 false false => some .i_narrow16
  | .narrow 8 false false => some .i_narrow8 | .narrow 4 false false => some .i_narrow4
  | .narrow 32 true true => some .i_qnarrow32 | .narrow 32 true false => some .i_qnarrow32u
  | .narrow 16 true true => some .i_qnarrow16 | .narrow 16 true false => some .i_qnarrow16u
  | .narrow 8 true true => some .i_qnarrow8 | .narrow 8 true false => some .i_qnarrow8u
  | .narrow 4 true true => some .i_qnarrow4 | .narrow 4 true false => some .i_qnarrow4u
  | .txp 16 => some .i_txp16 | .txp 8 => some .i_txp8 | .txp 4 => some .i_txp4 | .txp 2 => some .i_txp2
  | .dup 16 => some .i_dup16 | .dup 8 => some .i_dup8 | .dup 4 => some .i_dup4 | .dup 2 => some .i_dup2
  | .vins 16 => some .i_vins16 | .vins 8 => some .i_vins8 | .vins 4 => some .i_vins4 | .vins 2 => some .i_vins2
  | .vext 16 true => some .i_vext16 | .vext 16 false => some .i_vext16u
  | .vext 8 true => some .i_vext8 | .vext 8 false => some .i_vext8u
  | .vext 4 true => some .i_vext4 | .vext 4 false => some .i_vext4u
  | .vext 2 true => some .i_vext2 | .vext 2 false => some .i_vext2u
  | .scp .lcl => some .i_scp_lcl | .scp .rel => some .i_scp_rel
  | _ => none

/-- the `op` tokens of `CASE_ALU_REG_*` (core.cpp:467-518) -/
def aluG : AluOp → OpG
  | .add => .i_add | .sub => .i_sub | .sll => .i_sll | .srl => .i_srl | .sra => .i_sra | .slt => .i_slt
  | .sltu => .i_sltu | .xor => .i_xor | .or => .i_or | .and => .i_and | .mul => .i_mul | .mulh => .i_mulh
  | .mulhsu => .i_mulhsu | .mulhu => .i_mulhu | .div => .i_div | .divu => .i_divu | .rem => .i_rem
  | .remu => .i_remu | .max => .i_max | .maxu => .i_maxu | .min => .i_min | .minu => .i_minu
/-- core.cpp:520-548 -/
def aluiG : AluImmOp → OpG
  | .addi => .i_addi | .slli => .i_slli | .srli => .i_srli | .srai => .i_srai | .slti => .i_slti
  | .sltiu => .i_sltiu | .xori => .i_xori | .ori => .i_ori | .andi => .i_andi
/-- core.cpp:550-575 -/
def loadG : LoadOp → OpG
  | .lb => .i_lb | .lh => .i_lh | .lw => .i_lw | .lbu => .i_lbu | .lhu => .i_lhu
/-- core.cpp:577-598 -/
def storeG : StoreOp → OpG
  | .sb => .i_sb | .sh => .i_sh | .sw => .i_sw
/-- core.cpp:604-611 -/
def branchB : BranchOp → OpB
  | .beq => .i_beq | .bne => .i_bne | .blt => .i_blt | .bge => .i_bge | .bltu => .i_bltu | .bgeu => .i_bgeu
/-- core.cpp:1072-1080 -/
def csrG : CsrOp → OpG
  | .rw => .i_csrrw | .rs => .i_csrrs | .rc => .i_csrrc | .rwi => .i_csrrwi | .rsi => .i_csrrsi | .rci => .i_csrrci
/-- core_exec_c.cpp: the argument of `PROF_G` or `PROF_J` in each function -/
def compCall (fwd : Bool) : COp → Call
  | .addi => .g .i_c_addi | .li => .g .i_c_li | .lui => .g .i_c_lui | .nop => .g .i_c_nop
  | .addi16sp => .g .i_c_addi16sp | .srli => .g .i_c_srli | .srai => .g .i_c_srai | .andi => .g .i_c_andi
  | .and => .g .i_c_and | .or => .g .i_c_or | .xor => .g .i_c_xor | .sub => .g .i_c_sub
  | .addi4spn => .g .i_c_addi4spn | .slli => .g .i_c_slli | .mv => .g .i_c_mv | .add => .g .i_c_add
  | .lw => .g .i_c_lw | .lwsp => .g .i_c_lwsp | .sw => .g .i_c_sw | .swsp => .g .i_c_swsp
  | .ebreak => .g .i_c_ebreak
  | .j => .b .i_c_j true fwd | .jal => .b .i_c_jal true fwd | .jr => .b .i_c_jr true fwd
  | .jalr => .b .i_c_jalr true fwd

/-- defines.h:553-570: the call a recorded event makes.  Taken branches and jumps compare `next_pc` with `pc`,
not-taken branches their target. -/
def callOf (r : ProfRec) : Option Call :=
  let fwd : Bool := r.pc < r.nextPc
  let fwdB : Bool := r.pc < r.pc + IP.immB r.inst
  let fwdC : Bool := r.pc < r.pc + IP.cImmB r.inst
  match r.ev with
  | .alu op => some (.g (aluG op))
  | .alui op => some (.g (aluiG op))
  | .load op => some (.g (loadG op))
  | .store op => some (.g (storeG op))
  | .branch op t => some (.b (branchB op) t (if t then fwd else fwdB))
  | .jal => some (.b .i_jal true fwd)
  | .jalr => some (.b .i_jalr true fwd)
  | .lui => some (.g .i_lui)
  | .auipc => some (.g .i_auipc)
  | .mret => some (.g .i_mret)
  | .wfi => some (.g .i_wfi)
  | .fenceI => some (.g .i_fence_i)
  | .fence => some (.g .i_fence)
  | .csr op => some (.g (csrG op))
  | .simd op => (simdG op).map .g
  | .c op => some (compCall fwd op)
  | .cBeqz t => some (.b .i_c_beqz t (if t then fwd else fwdC))
  | .cBnez t => some (.b .i_c_bnez t (if t then fwd else fwdC))

/-- a call -/
def IProf.call (rv32c : Bool) (p : IProf) : Call → Res IProf
  | .g o => p.logG rv32c o
  | .b o t f => p.logB o t f

/-- one recorded event: `set_active` as at the time, `new_inst` (core.cpp:152), then the call -/
def IProf.feed (rv32c : Bool) (p : IProf) (r : ProfRec) : Res IProf :=
  match callOf r with
  | none => .ub .outOfBounds
  | some c => ((p.setActive r.active).newInst r.inst).call rv32c c

/-- the profiler after a recorded history, oldest event last -/
def IProf.replay (rv32c : Bool) : List ProfRec → Res IProf
  | [] => .ok IProf.make
  | r :: t => do let p ← IProf.replay rv32c t; p.feed rv32c r

/-! ## Fusion -/

/-- profiler_fusion.h:8-18 `state` -/
inductive FState where | start | lea1 | lea2 | leaMatch | il1 | il2 | ilMatch | leaIl3 | leaIlMatch
  deriving DecidableEq, Repr
/-- profiler_fusion.h:20-23 `trigger` -/
inductive Trigger where | slliLea | addIl
  deriving DecidableEq, Repr
/-- profiler_fusion.h:25-30 `inst_opt` -/
structure Opt where
  trig : Trigger
  inst : W
  instNx : W
  rvc : Bool

/-- profiler_fusion.h:32-50; `active` is unset until `set_active` -/
structure Fus where
  active : Option Bool := none
  state : FState := .start
  matches_ : Nat := 0

/-- profiler_fusion.cpp:38-44 `lea_1` -/
def lea1 (o : Opt) : FState :=
  let imm := if o.rvc then IP.cImmSlli o.inst else IP.immIShamt o.inst
  if 0#32 < imm ∧ imm < 3#32 then .lea2 else .start

/-- profiler_fusion.cpp:46-68 `lea_2` -/
def lea2 (o : Opt) : FState :=
  let rd := IP.rd o.inst
  let w := o.instNx
  let sys := IP.cRs2 w = 0#5 ∧ IP.rd w = 0#5
  if IP.cFunct3 w = 4#3 ∧ IP.cFunct4 w = 9#4 ∧ ¬ sys ∧ IP.cRs2 w = rd then .leaMatch
  else if IP.opcode w = 0x33#7 ∧ IP.funct7b5 w = 0#1 ∧ IP.funct3 w = 0#3 ∧ IP.rd w = IP.rs1 w ∧ IP.rs2 w = rd
  then .leaMatch
  else .start

/-- profiler_fusion.cpp:10-36 `transition` -/
def Fus.transition (o : Opt) (f : Fus) : Fus :=
  match f.state with
  | .start => if o.trig = .slliLea then { f with state := .lea1 } else f
  | .lea1 => { f with state := lea1 o }
  | .lea2 => { f with state := lea2 o }
  | .leaMatch => { f with matches_ := f.matches_ + 1, state := .start }
  | _ => f

/-- profiler_fusion.cpp:6-7: the do-while loop, with at most `n` transitions; `none` if it is still running -/
def Fus.loop (o : Opt) : Nat → Fus → Option Fus
  | 0, _ => none
  | n + 1, f =>
    let f := f.transition o
    if f.state = .start then some f else Fus.loop o n f

/-- profiler_fusion.cpp:3-8 `attack`; `none` if the loop runs for more than `n` transitions -/
def Fus.attack (n : Nat) (o : Opt) (f : Fus) : Res (Option Fus) :=
  match f.active with
  | none => .ub .uninit
  | some false => .ok (some f)
  | some true => .ok (f.loop o n)

/-- profiler_fusion.h:37 `set_active` -/
def Fus.setActive (f : Fus) (on : Bool) : Fus := { f with active := some on }

end Ama.Prof
