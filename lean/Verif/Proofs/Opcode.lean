import Verif.Spec.Opcode

namespace C8S

/-! ### Bit fields as arithmetic -/

theorem le_15_iff {x : U8} : x ≤ 0xF ↔ x.toNat ≤ 15 := by
  simp [BitVec.le_def]

theorem nib0_toNat (w : U16) : (((w &&& 0xF000) >>> 12).setWidth 8 : U8).toNat = w.toNat / 4096 := by
  have h : ((w &&& 0xF000) >>> 12).setWidth 8 = (w.extractLsb' 12 4).setWidth 8 := by
    apply BitVec.eq_of_getLsbD_eq
    intro i hi
    have : i = 0 ∨ i = 1 ∨ i = 2 ∨ i = 3 ∨ i = 4 ∨ i = 5 ∨ i = 6 ∨ i = 7 := by omega
    rcases this with rfl | rfl | rfl | rfl | rfl | rfl | rfl | rfl <;> simp
  rw [h]
  have := w.isLt
  simp [BitVec.extractLsb'_toNat, Nat.shiftRight_eq_div_pow]
  omega

theorem nib1_toNat (w : U16) : (((w &&& 0x0F00) >>> 8).setWidth 8 : U8).toNat = w.toNat / 256 % 16 := by
  have h : ((w &&& 0x0F00) >>> 8).setWidth 8 = (w.extractLsb' 8 4).setWidth 8 := by
    apply BitVec.eq_of_getLsbD_eq
    intro i hi
    have : i = 0 ∨ i = 1 ∨ i = 2 ∨ i = 3 ∨ i = 4 ∨ i = 5 ∨ i = 6 ∨ i = 7 := by omega
    rcases this with rfl | rfl | rfl | rfl | rfl | rfl | rfl | rfl <;> simp
  rw [h]
  have := w.isLt
  simp [BitVec.extractLsb'_toNat, Nat.shiftRight_eq_div_pow]
  omega

theorem nib2_toNat (w : U16) : (((w &&& 0x00F0) >>> 4).setWidth 8 : U8).toNat = w.toNat / 16 % 16 := by
  have h : ((w &&& 0x00F0) >>> 4).setWidth 8 = (w.extractLsb' 4 4).setWidth 8 := by
    apply BitVec.eq_of_getLsbD_eq
    intro i hi
    have : i = 0 ∨ i = 1 ∨ i = 2 ∨ i = 3 ∨ i = 4 ∨ i = 5 ∨ i = 6 ∨ i = 7 := by omega
    rcases this with rfl | rfl | rfl | rfl | rfl | rfl | rfl | rfl <;> simp
  rw [h]
  have := w.isLt
  simp [BitVec.extractLsb'_toNat, Nat.shiftRight_eq_div_pow]
  omega

theorem nib3_toNat (w : U16) : (((w &&& 0x000F) >>> 0).setWidth 8 : U8).toNat = w.toNat % 16 := by
  have h : ((w &&& 0x000F) >>> 0).setWidth 8 = (w.extractLsb' 0 4).setWidth 8 := by
    apply BitVec.eq_of_getLsbD_eq
    intro i hi
    have : i = 0 ∨ i = 1 ∨ i = 2 ∨ i = 3 ∨ i = 4 ∨ i = 5 ∨ i = 6 ∨ i = 7 := by omega
    rcases this with rfl | rfl | rfl | rfl | rfl | rfl | rfl | rfl <;> simp
  rw [h]
  have := w.isLt
  simp [BitVec.extractLsb'_toNat]
  omega

theorem imm4_toNat (w : U16) : ((w &&& 0x000F).setWidth 8 : U8).toNat = w.toNat % 16 := by
  have := nib3_toNat w
  simpa using this

theorem imm8_toNat (w : U16) : ((w &&& 0x00FF).setWidth 8 : U8).toNat = w.toNat % 256 := by
  have h : ((w &&& 0x00FF).setWidth 8 : U8) = w.setWidth 8 := by
    apply BitVec.eq_of_getLsbD_eq
    intro i hi
    have : i = 0 ∨ i = 1 ∨ i = 2 ∨ i = 3 ∨ i = 4 ∨ i = 5 ∨ i = 6 ∨ i = 7 := by omega
    rcases this with rfl | rfl | rfl | rfl | rfl | rfl | rfl | rfl <;> simp
  rw [h]
  simp

theorem hi8_toNat (w : U16) : (((w &&& 0xFF00) >>> 8).setWidth 8 : U8).toNat = w.toNat / 256 := by
  have h : (((w &&& 0xFF00) >>> 8).setWidth 8 : U8) = w.extractLsb' 8 8 := by
    apply BitVec.eq_of_getLsbD_eq
    intro i hi
    have : i = 0 ∨ i = 1 ∨ i = 2 ∨ i = 3 ∨ i = 4 ∨ i = 5 ∨ i = 6 ∨ i = 7 := by omega
    rcases this with rfl | rfl | rfl | rfl | rfl | rfl | rfl | rfl <;> simp
  rw [h]
  have := w.isLt
  simp [BitVec.extractLsb'_toNat, Nat.shiftRight_eq_div_pow]
  omega

theorem lo8_toNat (w : U16) : (((w &&& 0x00FF) >>> 0).setWidth 8 : U8).toNat = w.toNat % 256 := by
  have := imm8_toNat w
  simpa using this

theorem imm12_toNat (w : U16) : ((w &&& 0x0FFF).setWidth 12 : U12).toNat = w.toNat % 4096 := by
  have h : ((w &&& 0x0FFF).setWidth 12 : U12) = w.setWidth 12 := by
    apply BitVec.eq_of_getLsbD_eq
    intro i hi
    have : i = 0 ∨ i = 1 ∨ i = 2 ∨ i = 3 ∨ i = 4 ∨ i = 5 ∨ i = 6 ∨ i = 7 ∨ i = 8 ∨ i = 9 ∨ i = 10 ∨ i = 11 := by
      omega
    rcases this with rfl | rfl | rfl | rfl | rfl | rfl | rfl | rfl | rfl | rfl | rfl | rfl <;> simp
  rw [h]
  simp

theorem or_shift {a b i : Nat} (h : b < 2 ^ i) : a <<< i ||| b = a * 2 ^ i + b := by
  rw [← Nat.shiftLeft_add_eq_or_of_lt h, Nat.shiftLeft_eq]

/-- The word of a "4-bit prefix, 12-bit immediate" instruction. -/
theorem formatImm12_eq {h : U8} (hh : h.toNat ≤ 15) (n : U12) :
    formatImm12 h n = .ret (BitVec.ofNat 16 (h.toNat * 4096 + n.toNat)) := by
  have := n.isLt
  rw [formatImm12, if_pos (le_15_iff.2 hh)]
  congr 1
  apply BitVec.eq_of_toNat_eq
  have e1 : h.toNat <<< 12 % 65536 = h.toNat <<< 12 := by rw [Nat.shiftLeft_eq]; omega
  simp only [BitVec.toNat_or, BitVec.toNat_shiftLeft, BitVec.toNat_setWidth, BitVec.toNat_ofNat, Nat.reducePow]
  rw [Nat.mod_eq_of_lt (by omega : h.toNat < 65536), e1, Nat.mod_eq_of_lt (by omega : n.toNat < 65536),
    or_shift (by omega)]
  omega

/-- The word of a "prefix, register, byte" instruction. -/
theorem formatXImm8_eq {h x : U8} (hh : h.toNat ≤ 15) (hx : x.toNat ≤ 15) (v : U8) :
    formatXImm8 h x v = .ret (BitVec.ofNat 16 (h.toNat * 4096 + x.toNat * 256 + v.toNat)) := by
  have := v.isLt
  rw [formatXImm8, if_pos ⟨le_15_iff.2 hh, le_15_iff.2 hx⟩]
  congr 1
  apply BitVec.eq_of_toNat_eq
  have e1 : h.toNat <<< 12 % 65536 = h.toNat <<< 12 := by rw [Nat.shiftLeft_eq]; omega
  have e2 : x.toNat <<< 8 % 65536 = x.toNat <<< 8 := by rw [Nat.shiftLeft_eq]; omega
  simp only [BitVec.toNat_or, BitVec.toNat_shiftLeft, BitVec.toNat_setWidth, BitVec.toNat_ofNat, Nat.reducePow]
  rw [Nat.mod_eq_of_lt (by omega : h.toNat < 65536), e1, Nat.mod_eq_of_lt (by omega : x.toNat < 65536), e2,
    Nat.mod_eq_of_lt (by omega : v.toNat < 65536), Nat.or_assoc, or_shift (a := x.toNat) (by omega),
    or_shift (by omega)]
  omega

/-- The word of a "prefix, register, register, nibble" instruction. -/
theorem formatXY_eq {h x y n : U8} (hh : h.toNat ≤ 15) (hx : x.toNat ≤ 15) (hy : y.toNat ≤ 15)
    (hn : n.toNat ≤ 15) :
    formatXY h x y n = .ret (BitVec.ofNat 16 (h.toNat * 4096 + x.toNat * 256 + y.toNat * 16 + n.toNat)) := by
  rw [formatXY, if_pos ⟨le_15_iff.2 hh, le_15_iff.2 hx, le_15_iff.2 hy, le_15_iff.2 hn⟩]
  congr 1
  apply BitVec.eq_of_toNat_eq
  have e1 : h.toNat <<< 12 % 65536 = h.toNat <<< 12 := by rw [Nat.shiftLeft_eq]; omega
  have e2 : x.toNat <<< 8 % 65536 = x.toNat <<< 8 := by rw [Nat.shiftLeft_eq]; omega
  have e3 : y.toNat <<< 4 % 65536 = y.toNat <<< 4 := by rw [Nat.shiftLeft_eq]; omega
  simp only [BitVec.toNat_or, BitVec.toNat_shiftLeft, BitVec.toNat_setWidth, BitVec.toNat_ofNat, Nat.reducePow]
  rw [Nat.mod_eq_of_lt (by omega : h.toNat < 65536), e1, Nat.mod_eq_of_lt (by omega : x.toNat < 65536), e2,
    Nat.mod_eq_of_lt (by omega : y.toNat < 65536), e3,
    Nat.mod_eq_of_lt (by omega : n.toNat < 65536), Nat.or_assoc, Nat.or_assoc,
    or_shift (a := y.toNat) (by omega), or_shift (a := x.toNat) (by omega),
    or_shift (by omega)]
  omega

namespace Opcode

/-- The instruction word as a number. -/
def word : Opcode → Nat
  | .NOP => 0x0000
  | .CLS => 0x00E0
  | .RET => 0x00EE
  | .DEREF_I => 0x00F8
  | .TRAPRET => 0x00F9
  | .TRAP => 0x00FA
  | .JP n => 0x1000 + n.toNat
  | .CALL n => 0x2000 + n.toNat
  | .SE_IMMEDIATE x v => 0x3000 + x.toNat * 256 + v.toNat
  | .SNE_IMMEDIATE x v => 0x4000 + x.toNat * 256 + v.toNat
  | .SE_REGISTER x y => 0x5000 + x.toNat * 256 + y.toNat * 16
  | .LD_IMMEDIATE x v => 0x6000 + x.toNat * 256 + v.toNat
  | .ADD_IMMEDIATE x v => 0x7000 + x.toNat * 256 + v.toNat
  | .LD_REGISTER x y => 0x8000 + x.toNat * 256 + y.toNat * 16
  | .OR x y => 0x8001 + x.toNat * 256 + y.toNat * 16
  | .AND x y => 0x8002 + x.toNat * 256 + y.toNat * 16
  | .XOR x y => 0x8003 + x.toNat * 256 + y.toNat * 16
  | .ADD_REGISTER x y => 0x8004 + x.toNat * 256 + y.toNat * 16
  | .SUB x y => 0x8005 + x.toNat * 256 + y.toNat * 16
  | .SHR x y => 0x8006 + x.toNat * 256 + y.toNat * 16
  | .SUBN x y => 0x8007 + x.toNat * 256 + y.toNat * 16
  | .SHL x y => 0x800E + x.toNat * 256 + y.toNat * 16
  | .SNE_REGISTER x y => 0x9000 + x.toNat * 256 + y.toNat * 16
  | .LD_I n => 0xA000 + n.toNat
  | .JP_V0 n => 0xB000 + n.toNat
  | .RND x v => 0xC000 + x.toNat * 256 + v.toNat
  | .DRW x y n => 0xD000 + x.toNat * 256 + y.toNat * 16 + n.toNat
  | .SE_K x => 0xE09E + x.toNat * 256
  | .SNE_K x => 0xE0A1 + x.toNat * 256
  | .LD_X_DT x => 0xF007 + x.toNat * 256
  | .LD_X_K x => 0xF00A + x.toNat * 256
  | .LD_DT_X x => 0xF015 + x.toNat * 256
  | .LD_ST_X x => 0xF018 + x.toNat * 256
  | .ADD_I_X x => 0xF01E + x.toNat * 256
  | .SPRITE_I x => 0xF029 + x.toNat * 256
  | .BCD_I x => 0xF033 + x.toNat * 256
  | .SAVE_I x => 0xF055 + x.toNat * 256
  | .RESTORE_I x => 0xF065 + x.toNat * 256

theorem asInstruction_eq {op : Opcode} (h : op.WellFormed) :
    op.asInstruction = .ret (BitVec.ofNat 16 op.word) := by
  have key : ∀ {a b : Nat}, a = b → Run.ret (BitVec.ofNat 16 a) = Run.ret (BitVec.ofNat 16 b) := by
    rintro a b rfl; rfl
  cases op <;> simp only [WellFormed] at h <;> simp only [asInstruction, word] <;>
    first
    | rfl
    | (rw [formatImm12_eq (by decide)]; refine key ?_; simp; done)
    | (rw [formatXImm8_eq (by decide) h]; refine key ?_; simp; done)
    | (rw [formatXImm8_eq (by decide) h]; refine key ?_; simp; omega)
    | (rw [formatXY_eq (by decide) h.1 h.2 (by decide)]; refine key ?_; simp; done)
    | (rw [formatXY_eq (by decide) h.1 h.2 (by decide)]; refine key ?_; simp; omega)
    | (rw [formatXY_eq (by decide) h.1 h.2.1 h.2.2]; refine key ?_; simp; done)
    | skip

theorem word_lt {op : Opcode} (h : op.WellFormed) : op.word < 65536 := by
  cases op <;> simp only [WellFormed, word] at * <;> first | decide | skip
  all_goals first
    | omega
    | (rename_i v; have := v.isLt; omega)

/-- Decoding by the numeric value of the four nibbles. -/
theorem fromInstruction_nibbles (w : U16) (a b c d : Nat) (ha : w.toNat / 4096 = a)
    (hb : w.toNat / 256 % 16 = b) (hc : w.toNat / 16 % 16 = c) (hd : w.toNat % 16 = d) :
    fromInstruction w =
      if a = 0 ∧ b = 0 ∧ c = 14 ∧ d = 0 then .CLS
      else if a = 0 ∧ b = 0 ∧ c = 14 ∧ d = 14 then .RET
      else if a = 0 ∧ b = 0 ∧ c = 15 ∧ d = 8 then .DEREF_I
      else if a = 0 ∧ b = 0 ∧ c = 15 ∧ d = 9 then .TRAPRET
      else if a = 0 ∧ b = 0 ∧ c = 15 ∧ d = 10 then .TRAP
      else if a = 1 then .JP (BitVec.ofNat 12 w.toNat)
      else if a = 2 then .CALL (BitVec.ofNat 12 w.toNat)
      else if a = 3 then .SE_IMMEDIATE (BitVec.ofNat 8 b) (BitVec.ofNat 8 w.toNat)
      else if a = 4 then .SNE_IMMEDIATE (BitVec.ofNat 8 b) (BitVec.ofNat 8 w.toNat)
      else if a = 5 ∧ d = 0 then .SE_REGISTER (BitVec.ofNat 8 b) (BitVec.ofNat 8 c)
      else if a = 6 then .LD_IMMEDIATE (BitVec.ofNat 8 b) (BitVec.ofNat 8 w.toNat)
      else if a = 7 then .ADD_IMMEDIATE (BitVec.ofNat 8 b) (BitVec.ofNat 8 w.toNat)
      else if a = 8 ∧ d = 0 then .LD_REGISTER (BitVec.ofNat 8 b) (BitVec.ofNat 8 c)
      else if a = 8 ∧ d = 1 then .OR (BitVec.ofNat 8 b) (BitVec.ofNat 8 c)
      else if a = 8 ∧ d = 2 then .AND (BitVec.ofNat 8 b) (BitVec.ofNat 8 c)
      else if a = 8 ∧ d = 3 then .XOR (BitVec.ofNat 8 b) (BitVec.ofNat 8 c)
      else if a = 8 ∧ d = 4 then .ADD_REGISTER (BitVec.ofNat 8 b) (BitVec.ofNat 8 c)
      else if a = 8 ∧ d = 5 then .SUB (BitVec.ofNat 8 b) (BitVec.ofNat 8 c)
      else if a = 8 ∧ d = 6 then .SHR (BitVec.ofNat 8 b) (BitVec.ofNat 8 c)
      else if a = 8 ∧ d = 7 then .SUBN (BitVec.ofNat 8 b) (BitVec.ofNat 8 c)
      else if a = 8 ∧ d = 14 then .SHL (BitVec.ofNat 8 b) (BitVec.ofNat 8 c)
      else if a = 9 ∧ d = 0 then .SNE_REGISTER (BitVec.ofNat 8 b) (BitVec.ofNat 8 c)
      else if a = 10 then .LD_I (BitVec.ofNat 12 w.toNat)
      else if a = 11 then .JP_V0 (BitVec.ofNat 12 w.toNat)
      else if a = 12 then .RND (BitVec.ofNat 8 b) (BitVec.ofNat 8 w.toNat)
      else if a = 13 then .DRW (BitVec.ofNat 8 b) (BitVec.ofNat 8 c) (BitVec.ofNat 8 d)
      else if a = 14 ∧ c = 9 ∧ d = 14 then .SE_K (BitVec.ofNat 8 b)
      else if a = 14 ∧ c = 10 ∧ d = 1 then .SNE_K (BitVec.ofNat 8 b)
      else if a = 15 ∧ c = 0 ∧ d = 7 then .LD_X_DT (BitVec.ofNat 8 b)
      else if a = 15 ∧ c = 0 ∧ d = 10 then .LD_X_K (BitVec.ofNat 8 b)
      else if a = 15 ∧ c = 1 ∧ d = 5 then .LD_DT_X (BitVec.ofNat 8 b)
      else if a = 15 ∧ c = 1 ∧ d = 8 then .LD_ST_X (BitVec.ofNat 8 b)
      else if a = 15 ∧ c = 1 ∧ d = 14 then .ADD_I_X (BitVec.ofNat 8 b)
      else if a = 15 ∧ c = 2 ∧ d = 9 then .SPRITE_I (BitVec.ofNat 8 b)
      else if a = 15 ∧ c = 3 ∧ d = 3 then .BCD_I (BitVec.ofNat 8 b)
      else if a = 15 ∧ c = 5 ∧ d = 5 then .SAVE_I (BitVec.ofNat 8 b)
      else if a = 15 ∧ c = 6 ∧ d = 5 then .RESTORE_I (BitVec.ofNat 8 b)
      else .NOP := by
  have e1 : (((w &&& 0x0F00) >>> 8).setWidth 8 : U8) = BitVec.ofNat 8 b := by
    apply BitVec.eq_of_toNat_eq; rw [nib1_toNat, BitVec.toNat_ofNat]; omega
  have e2 : (((w &&& 0x00F0) >>> 4).setWidth 8 : U8) = BitVec.ofNat 8 c := by
    apply BitVec.eq_of_toNat_eq; rw [nib2_toNat, BitVec.toNat_ofNat]; omega
  have e3 : ((w &&& 0x000F).setWidth 8 : U8) = BitVec.ofNat 8 d := by
    apply BitVec.eq_of_toNat_eq; rw [imm4_toNat, BitVec.toNat_ofNat]; omega
  have e4 : ((w &&& 0x00FF).setWidth 8 : U8) = BitVec.ofNat 8 w.toNat := by
    apply BitVec.eq_of_toNat_eq; rw [imm8_toNat, BitVec.toNat_ofNat]
  have e5 : ((w &&& 0x0FFF).setWidth 12 : U12) = BitVec.ofNat 12 w.toNat := by
    apply BitVec.eq_of_toNat_eq; rw [imm12_toNat, BitVec.toNat_ofNat]
  have c0 : ∀ k : U8, ((((w &&& 0xF000) >>> 12).setWidth 8 : U8) = k ↔ a = k.toNat) := by
    intro k; rw [← BitVec.toNat_inj, nib0_toNat, ha]
  have c1 : ∀ k : U8, ((((w &&& 0x0F00) >>> 8).setWidth 8 : U8) = k ↔ b = k.toNat) := by
    intro k; rw [← BitVec.toNat_inj, nib1_toNat, hb]
  have c2 : ∀ k : U8, ((((w &&& 0x00F0) >>> 4).setWidth 8 : U8) = k ↔ c = k.toNat) := by
    intro k; rw [← BitVec.toNat_inj, nib2_toNat, hc]
  have c3 : ∀ k : U8, ((((w &&& 0x000F) >>> 0).setWidth 8 : U8) = k ↔ d = k.toNat) := by
    intro k; rw [← BitVec.toNat_inj, nib3_toNat, hd]
  simp only [fromInstruction, c0, c1, c2, c3]
  simp only [e1, e2, e3, e4, e5]
  rfl

theorem fromInstruction_word {op : Opcode} (h : op.WellFormed) :
    fromInstruction (BitVec.ofNat 16 op.word) = op := by
  have hw : (BitVec.ofNat 16 op.word).toNat = op.word := by
    rw [BitVec.toNat_ofNat, Nat.mod_eq_of_lt (word_lt h)]
  generalize BitVec.ofNat 16 op.word = w at hw
  have e8 : ∀ {n : Nat} {x : U8}, n % 256 = x.toNat → BitVec.ofNat 8 n = x := by
    intro n x h; apply BitVec.eq_of_toNat_eq; rw [BitVec.toNat_ofNat]; exact h
  have e12 : ∀ {n : Nat} {x : U12}, n % 4096 = x.toNat → BitVec.ofNat 12 n = x := by
    intro n x h; apply BitVec.eq_of_toNat_eq; rw [BitVec.toNat_ofNat]; exact h
  cases op <;> simp only [WellFormed, word] at h hw
  case NOP | CLS | RET | DEREF_I | TRAPRET | TRAP =>
    rw [fromInstruction_nibbles w _ _ _ _ rfl rfl rfl rfl, hw]; rfl
  case JP n =>
    have := n.isLt
    rw [fromInstruction_nibbles w 1 _ _ _ (by omega) rfl rfl rfl]
    rw [e12 (n := w.toNat) (x := n) (by omega)]
    simp
  case CALL n =>
    have := n.isLt
    rw [fromInstruction_nibbles w 2 _ _ _ (by omega) rfl rfl rfl]
    rw [e12 (n := w.toNat) (x := n) (by omega)]
    simp
  case LD_I n =>
    have := n.isLt
    rw [fromInstruction_nibbles w 10 _ _ _ (by omega) rfl rfl rfl]
    rw [e12 (n := w.toNat) (x := n) (by omega)]
    simp
  case JP_V0 n =>
    have := n.isLt
    rw [fromInstruction_nibbles w 11 _ _ _ (by omega) rfl rfl rfl]
    rw [e12 (n := w.toNat) (x := n) (by omega)]
    simp
  case SE_IMMEDIATE x v =>
    have := v.isLt
    rw [fromInstruction_nibbles w 3 x.toNat _ _ (by omega) (by omega) rfl rfl]
    rw [e8 (n := w.toNat) (x := v) (by omega)]
    simp
  case SNE_IMMEDIATE x v =>
    have := v.isLt
    rw [fromInstruction_nibbles w 4 x.toNat _ _ (by omega) (by omega) rfl rfl]
    rw [e8 (n := w.toNat) (x := v) (by omega)]
    simp
  case LD_IMMEDIATE x v =>
    have := v.isLt
    rw [fromInstruction_nibbles w 6 x.toNat _ _ (by omega) (by omega) rfl rfl]
    rw [e8 (n := w.toNat) (x := v) (by omega)]
    simp
  case ADD_IMMEDIATE x v =>
    have := v.isLt
    rw [fromInstruction_nibbles w 7 x.toNat _ _ (by omega) (by omega) rfl rfl]
    rw [e8 (n := w.toNat) (x := v) (by omega)]
    simp
  case RND x v =>
    have := v.isLt
    rw [fromInstruction_nibbles w 12 x.toNat _ _ (by omega) (by omega) rfl rfl]
    rw [e8 (n := w.toNat) (x := v) (by omega)]
    simp
  case SE_REGISTER x y =>
    rw [fromInstruction_nibbles w 5 x.toNat y.toNat 0 (by omega) (by omega) (by omega) (by omega)]
    simp
  case SNE_REGISTER x y =>
    rw [fromInstruction_nibbles w 9 x.toNat y.toNat 0 (by omega) (by omega) (by omega) (by omega)]
    simp
  case LD_REGISTER x y =>
    rw [fromInstruction_nibbles w 8 x.toNat y.toNat 0 (by omega) (by omega) (by omega) (by omega)]
    simp
  case OR x y =>
    rw [fromInstruction_nibbles w 8 x.toNat y.toNat 1 (by omega) (by omega) (by omega) (by omega)]
    simp
  case AND x y =>
    rw [fromInstruction_nibbles w 8 x.toNat y.toNat 2 (by omega) (by omega) (by omega) (by omega)]
    simp
  case XOR x y =>
    rw [fromInstruction_nibbles w 8 x.toNat y.toNat 3 (by omega) (by omega) (by omega) (by omega)]
    simp
  case ADD_REGISTER x y =>
    rw [fromInstruction_nibbles w 8 x.toNat y.toNat 4 (by omega) (by omega) (by omega) (by omega)]
    simp
  case SUB x y =>
    rw [fromInstruction_nibbles w 8 x.toNat y.toNat 5 (by omega) (by omega) (by omega) (by omega)]
    simp
  case SHR x y =>
    rw [fromInstruction_nibbles w 8 x.toNat y.toNat 6 (by omega) (by omega) (by omega) (by omega)]
    simp
  case SUBN x y =>
    rw [fromInstruction_nibbles w 8 x.toNat y.toNat 7 (by omega) (by omega) (by omega) (by omega)]
    simp
  case SHL x y =>
    rw [fromInstruction_nibbles w 8 x.toNat y.toNat 14 (by omega) (by omega) (by omega) (by omega)]
    simp
  case DRW x y n =>
    rw [fromInstruction_nibbles w 13 x.toNat y.toNat n.toNat (by omega) (by omega) (by omega) (by omega)]
    simp
  case SE_K x =>
    rw [fromInstruction_nibbles w 14 x.toNat 9 14 (by omega) (by omega) (by omega) (by omega)]
    simp
  case SNE_K x =>
    rw [fromInstruction_nibbles w 14 x.toNat 10 1 (by omega) (by omega) (by omega) (by omega)]
    simp
  case LD_X_DT x =>
    rw [fromInstruction_nibbles w 15 x.toNat 0 7 (by omega) (by omega) (by omega) (by omega)]
    simp
  case LD_X_K x =>
    rw [fromInstruction_nibbles w 15 x.toNat 0 10 (by omega) (by omega) (by omega) (by omega)]
    simp
  case LD_DT_X x =>
    rw [fromInstruction_nibbles w 15 x.toNat 1 5 (by omega) (by omega) (by omega) (by omega)]
    simp
  case LD_ST_X x =>
    rw [fromInstruction_nibbles w 15 x.toNat 1 8 (by omega) (by omega) (by omega) (by omega)]
    simp
  case ADD_I_X x =>
    rw [fromInstruction_nibbles w 15 x.toNat 1 14 (by omega) (by omega) (by omega) (by omega)]
    simp
  case SPRITE_I x =>
    rw [fromInstruction_nibbles w 15 x.toNat 2 9 (by omega) (by omega) (by omega) (by omega)]
    simp
  case BCD_I x =>
    rw [fromInstruction_nibbles w 15 x.toNat 3 3 (by omega) (by omega) (by omega) (by omega)]
    simp
  case SAVE_I x =>
    rw [fromInstruction_nibbles w 15 x.toNat 5 5 (by omega) (by omega) (by omega) (by omega)]
    simp
  case RESTORE_I x =>
    rw [fromInstruction_nibbles w 15 x.toNat 6 5 (by omega) (by omega) (by omega) (by omega)]
    simp

theorem ite_ind {α : Type} (P : α → Prop) {c : Prop} [Decidable c] {a b : α} (h1 : c → P a) (h2 : ¬ c → P b) :
    P (if c then a else b) := by
  split
  · exact h1 ‹_›
  · exact h2 ‹_›

/-- `op` is well-formed and is NOP or has the word `n`. -/
def Decodes (n : Nat) (op : Opcode) : Prop := op.WellFormed ∧ (op = .NOP ∨ op.word = n)

/-- Every word decodes to a well-formed opcode whose word it is, or to NOP. -/
theorem word_fromInstruction (w : U16) : Decodes w.toNat (fromInstruction w) := by
  have hlt := w.isLt
  rw [fromInstruction_nibbles w _ _ _ _ rfl rfl rfl rfl]
  repeat' (refine ite_ind (Decodes w.toNat) (fun h => ?_) (fun _ => ?_))
  all_goals simp only [Decodes, WellFormed, word, BitVec.toNat_ofNat, Nat.reducePow]
  all_goals first
    | exact ⟨trivial, .inl trivial⟩
    | exact ⟨trivial, .inl rfl⟩
    | exact ⟨by omega, .inr (by omega)⟩
    | exact ⟨trivial, .inr (by omega)⟩

/-- An opcode that is not well-formed has no instruction word. -/
theorem asInstruction_panic {op : Opcode} (h : ¬ op.WellFormed) : op.asInstruction = .panic := by
  cases op <;> simp only [WellFormed, not_true_eq_false] at h <;>
    simp only [asInstruction, formatXImm8, formatXY, le_15_iff] <;>
    exact if_neg (by omega)

end Opcode

end C8S
