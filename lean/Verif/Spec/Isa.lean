import Verif.Spec.Case
import Verif.Spec.Shown
import Verif.Model.Instruction

/-
Specification of the instruction set, transcribed from the tables of README.md ("Mnemonics", lines 74-119).
-/

namespace C8S.Spec

/-- The operand places of the README table. -/
inductive Slot where
  | vx | vy | v0 | nn | n | addr | i | indI | dt | st | k | f | b
  deriving DecidableEq, Repr

structure Row where
  /-- The "Opcode" column. -/
  template : Str
  /-- The "Mnemonic" column. -/
  mnemonic : Str
  slots : List Slot
  deriving DecidableEq, Repr

/-- The README tables, one row per line, with the undocumented NOP first. -/
def table : List Row := [
  ⟨"0000".toList, "nop".toList, []⟩,
  ⟨"00E0".toList, "cls".toList, []⟩,
  ⟨"00EE".toList, "ret".toList, []⟩,
  ⟨"1nnn".toList, "jp".toList, [.addr]⟩,
  ⟨"2nnn".toList, "call".toList, [.addr]⟩,
  ⟨"3xkk".toList, "se".toList, [.vx, .nn]⟩,
  ⟨"4xkk".toList, "sne".toList, [.vx, .nn]⟩,
  ⟨"5xy0".toList, "se".toList, [.vx, .vy]⟩,
  ⟨"6xkk".toList, "ld".toList, [.vx, .nn]⟩,
  ⟨"7xkk".toList, "add".toList, [.vx, .nn]⟩,
  ⟨"8xy0".toList, "ld".toList, [.vx, .vy]⟩,
  ⟨"8xy1".toList, "or".toList, [.vx, .vy]⟩,
  ⟨"8xy2".toList, "and".toList, [.vx, .vy]⟩,
  ⟨"8xy3".toList, "xor".toList, [.vx, .vy]⟩,
  ⟨"8xy4".toList, "add".toList, [.vx, .vy]⟩,
  ⟨"8xy5".toList, "sub".toList, [.vx, .vy]⟩,
  ⟨"8xy6".toList, "shr".toList, [.vx]⟩,
  ⟨"8xy7".toList, "subn".toList, [.vx, .vy]⟩,
  ⟨"8xyE".toList, "shl".toList, [.vx]⟩,
  ⟨"9xy0".toList, "sne".toList, [.vx, .vy]⟩,
  ⟨"Annn".toList, "ld".toList, [.i, .addr]⟩,
  ⟨"Bnnn".toList, "jp".toList, [.v0, .addr]⟩,
  ⟨"Cxkk".toList, "rnd".toList, [.vx, .nn]⟩,
  ⟨"Dxyn".toList, "drw".toList, [.vx, .vy, .n]⟩,
  ⟨"Ex9E".toList, "skp".toList, [.vx]⟩,
  ⟨"ExA1".toList, "sknp".toList, [.vx]⟩,
  ⟨"Fx07".toList, "ld".toList, [.vx, .dt]⟩,
  ⟨"Fx0A".toList, "ld".toList, [.vx, .k]⟩,
  ⟨"Fx15".toList, "ld".toList, [.dt, .vx]⟩,
  ⟨"Fx18".toList, "ld".toList, [.st, .vx]⟩,
  ⟨"Fx1E".toList, "add".toList, [.i, .vx]⟩,
  ⟨"Fx29".toList, "ld".toList, [.f, .vx]⟩,
  ⟨"Fx33".toList, "ld".toList, [.b, .vx]⟩,
  ⟨"Fx55".toList, "ld".toList, [.indI, .vx]⟩,
  ⟨"Fx65".toList, "ld".toList, [.vx, .indI]⟩,
  ⟨"00F8".toList, "ld".toList, [.i, .indI]⟩,
  ⟨"00F9".toList, "trapret".toList, []⟩,
  ⟨"00FA".toList, "trap".toList, []⟩]

/-- The values of the variable parts of a template. -/
structure Vars where
  x : Nat := 0
  y : Nat := 0
  n : Nat := 0
  kk : Nat := 0
  nnn : Nat := 0

/-- A fixed hexadecimal digit of a template. -/
def fixedDigit (c : Char) : Nat := if c.toNat ≤ 57 then c.toNat - 48 else c.toNat - 55

/-- The hexadecimal digits of a template with its variable parts filled in. -/
def fill (v : Vars) : Str → List Nat
  | 'n' :: 'n' :: 'n' :: t => v.nnn / 256 :: v.nnn / 16 % 16 :: v.nnn % 16 :: fill v t
  | 'k' :: 'k' :: t => v.kk / 16 :: v.kk % 16 :: fill v t
  | 'n' :: t => v.n :: fill v t
  | 'x' :: t => v.x :: fill v t
  | 'y' :: t => v.y :: fill v t
  | c :: t => fixedDigit c :: fill v t
  | [] => []

/-- The number written by hexadecimal digits, most significant first. -/
def hexValue (digits : List Nat) : Nat := digits.foldl (fun acc d => acc * 16 + d) 0

/-- The number an operand stands for: a literal, or the value of a defined label. -/
inductive Denotes (labels : LabelMap) : Field → Nat → Prop where
  | literal (v : U12) : Denotes labels (.numericLiteral v) v.toNat
  | label {name : Str} {v : U12} : labels.get name = some v → Denotes labels (.identifier name) v.toNat

/-- The operand `f` fits the place `s`, giving the variable parts their values. -/
inductive Fits (labels : LabelMap) (v : Vars) : Slot → Field → Prop where
  | vx {r : U8} : r.toNat = v.x → v.x ≤ 15 → Fits labels v .vx (.generalPurposeRegister r)
  | vy {r : U8} : r.toNat = v.y → v.y ≤ 15 → Fits labels v .vy (.generalPurposeRegister r)
  | v0 : Fits labels v .v0 (.generalPurposeRegister 0)
  | nn {f : Field} : Denotes labels f v.kk → v.kk ≤ 255 → Fits labels v .nn f
  | n {f : Field} : Denotes labels f v.n → v.n ≤ 15 → Fits labels v .n f
  | addr {f : Field} : Denotes labels f v.nnn → Fits labels v .addr f
  | i : Fits labels v .i .indexRegister
  | indI : Fits labels v .indI .indexRegisterIndirect
  | dt : Fits labels v .dt .delayTimer
  | st : Fits labels v .st .soundTimer
  | k : Fits labels v .k .keypadRegister
  | f : Fits labels v .f .sprite
  | b : Fits labels v .b .bcd

/-- The operands fit the places, one to one. -/
inductive FitsAll (labels : LabelMap) (v : Vars) : List Slot → List Field → Prop where
  | nil : FitsAll labels v [] []
  | cons {s : Slot} {f : Field} {ss : List Slot} {fs : List Field} :
    Fits labels v s f → FitsAll labels v ss fs → FitsAll labels v (s :: ss) (f :: fs)

/-- The instruction assembles to the word `w`: it matches a row, and `w` is the template of that row with the
operands filled in (a variable part with no operand is 0). -/
def Encodes (labels : LabelMap) (mnemonic : Str) (fields : List Field) (w : Nat) : Prop :=
  ∃ row ∈ table, ∃ v : Vars, SameWord mnemonic row.mnemonic ∧ FitsAll labels v row.slots fields ∧
    (.vy ∉ row.slots → v.y = 0) ∧ w = hexValue (fill v row.template)

/-- The operand `f` is of the kind wanted by the place `s`, whatever its value. -/
inductive Shape : Slot → Field → Prop where
  | vx {r : U8} : Shape .vx (.generalPurposeRegister r)
  | vy {r : U8} : Shape .vy (.generalPurposeRegister r)
  | v0 : Shape .v0 (.generalPurposeRegister 0)
  | nnLit {v : U12} : Shape .nn (.numericLiteral v)
  | nnId {name : Str} : Shape .nn (.identifier name)
  | nLit {v : U12} : Shape .n (.numericLiteral v)
  | nId {name : Str} : Shape .n (.identifier name)
  | addrLit {v : U12} : Shape .addr (.numericLiteral v)
  | addrId {name : Str} : Shape .addr (.identifier name)
  | i : Shape .i .indexRegister
  | indI : Shape .indI .indexRegisterIndirect
  | dt : Shape .dt .delayTimer
  | st : Shape .st .soundTimer
  | k : Shape .k .keypadRegister
  | f : Shape .f .sprite
  | b : Shape .b .bcd

inductive ShapeAll : List Slot → List Field → Prop where
  | nil : ShapeAll [] []
  | cons {s : Slot} {f : Field} {ss : List Slot} {fs : List Field} :
    Shape s f → ShapeAll ss fs → ShapeAll (s :: ss) (f :: fs)

/-- The instruction has the mnemonic and the kinds of operands of a row. -/
def Selects (row : Row) (mnemonic : Str) (fields : List Field) : Prop :=
  row ∈ table ∧ SameWord mnemonic row.mnemonic ∧ ShapeAll row.slots fields

/-- The register numbers of an operand list are below 16, as for every list the parser produces. -/
def FourBitRegisters (fields : List Field) : Prop := ∀ r, .generalPurposeRegister r ∈ fields → r.toNat ≤ 15

/-- The errors of instructions that do not assemble. -/
inductive InstructionFails (labels : LabelMap) (mnemonic : Str) (fields : List Field) :
    InstructionError → Prop where
  | unresolved {row : Row} {name : Str} : Selects row mnemonic fields → .identifier name ∈ fields →
    labels.get name = none → InstructionFails labels mnemonic fields (.unableToResolveLabel name)
  | eightBit {row : Row} {f : Field} {value : Nat} : Selects row mnemonic fields → .nn ∈ row.slots → f ∈ fields →
    Denotes labels f value → 255 < value → InstructionFails labels mnemonic fields (.expectingEightBitValue value)
  | fourBit {row : Row} {f : Field} {value : Nat} : Selects row mnemonic fields → .n ∈ row.slots → f ∈ fields →
    Denotes labels f value → 15 < value → InstructionFails labels mnemonic fields (.expectingFourBitValue value)
  | noMatch : (∀ row, ¬ Selects row mnemonic fields) →
    InstructionFails labels mnemonic fields (.noMatchingFormat mnemonic
      (if fields = [] then none else some (shownOperands fields)))

end C8S.Spec
