import Verif.Spec.Running

/-
A CHIP-8 interpreter, which takes instructions from memory as numbers, and what the instructions of the source text do. Both
follow the "Function" column of the tables of README.md (lines 74-119) and the technical reference named there; `ADD Vx, Vy`
adds, and `RND` leaves `VF` alone, as in the reference. The screen, the sprites of the digits and `LD I, [I]` of the FPC8 are
left open. Timers are only written and read.
-/

namespace C8S.Spec

/-- Registers, timers, keys and screen. -/
structure Chip8 (S : Type) where
  v : Nat → U8
  i : BitVec 16
  dt : U8
  st : U8
  keys : U8 → Bool
  screen : S

/-- The register `Vx` gets a value. -/
def Chip8.set {S : Type} (d : Chip8 S) (x : Nat) (b : U8) : Chip8 S := { d with v := fun k => if k = x then b else d.v k }

/-- `Vx` and then `VF` get a value. -/
def Chip8.setFlag {S : Type} (d : Chip8 S) (x : Nat) (b : U8) (flag : Bool) : Chip8 S :=
  (d.set x b).set 15 (if flag then 1 else 0)

/-- `V0` to `Vx`, from memory. -/
def Chip8.load {S : Type} (d : Chip8 S) (x : Nat) (mem : Memory) : Chip8 S :=
  { d with v := fun k => if k ≤ x then mem (d.i.toNat + k) else d.v k }

/-- `V0` to `Vx`, into memory. -/
def Chip8.store {S : Type} (d : Chip8 S) (x : Nat) (mem : Memory) : Memory :=
  fun a => if d.i.toNat ≤ a ∧ a ≤ d.i.toNat + x then d.v (a - d.i.toNat) else mem a

/-- The decimal digits of `Vx`, into memory. -/
def Chip8.storeDigits {S : Type} (d : Chip8 S) (x : Nat) (mem : Memory) : Memory :=
  fun a => if a = d.i.toNat then d.v x / 100 else if a = d.i.toNat + 1 then d.v x / 10 % 10
    else if a = d.i.toNat + 2 then d.v x % 10 else mem a

/-- What is left open: the empty screen, drawing (the result, and whether there was a collision), the addresses of the
digits, and `LD I, [I]`. -/
structure World (S : Type) where
  clear : S
  draw : S → U8 → U8 → List U8 → S × Bool
  digit : U8 → BitVec 16
  indirect : Memory → BitVec 16 → BitVec 16

/-- The interpreter. -/
structure Machine (S : Type) where
  pc : Nat
  stack : List Nat
  data : Chip8 S
  mem : Memory

/-- The `n` bytes from an address on. -/
def sprite (mem : Memory) (a n : Nat) : List U8 := (List.range n).map fun k => mem (a + k)

/-- The next instruction, with other data and memory. -/
def Machine.next {S : Type} (m : Machine S) (d : Chip8 S) (mem : Memory) : Option (Machine S) :=
  some ⟨m.pc + 2, m.stack, d, mem⟩

/-- The next instruction, or the one after it. -/
def Machine.skip {S : Type} (m : Machine S) (b : Bool) : Option (Machine S) :=
  some { m with pc := if b then m.pc + 4 else m.pc + 2 }

/-- One instruction. `input` is the random number, or the key pressed, if one is needed. Traps and unknown instructions end the
execution, and so does `RET` without a return address. -/
def interpret {S : Type} (w : World S) (input : U8) (m : Machine S) : Option (Machine S) :=
  let d := m.data
  let hi := (m.mem m.pc).toNat
  let lo := (m.mem (m.pc + 1)).toNat
  let x := hi % 16
  let y := lo / 16
  let nnn := hi % 16 * 256 + lo
  let kk := m.mem (m.pc + 1)
  match hi / 16 with
  | 0x0 =>
    if hi ≠ 0 then none
    else match lo with
      | 0x00 => m.next d m.mem
      | 0xE0 => m.next { d with screen := w.clear } m.mem
      | 0xEE => match m.stack with
        | [] => none
        | r :: st => some { m with pc := r, stack := st }
      | 0xF8 => m.next { d with i := w.indirect m.mem d.i } m.mem
      | _ => none
  | 0x1 => some { m with pc := nnn }
  | 0x2 => some { m with pc := nnn, stack := (m.pc + 2) :: m.stack }
  | 0x3 => m.skip (d.v x = kk)
  | 0x4 => m.skip (d.v x ≠ kk)
  | 0x5 => if lo % 16 = 0 then m.skip (d.v x = d.v y) else none
  | 0x6 => m.next (d.set x kk) m.mem
  | 0x7 => m.next (d.set x (d.v x + kk)) m.mem
  | 0x8 => match lo % 16 with
    | 0x0 => m.next (d.set x (d.v y)) m.mem
    | 0x1 => m.next (d.set x (d.v x ||| d.v y)) m.mem
    | 0x2 => m.next (d.set x (d.v x &&& d.v y)) m.mem
    | 0x3 => m.next (d.set x (d.v x ^^^ d.v y)) m.mem
    | 0x4 => m.next (d.setFlag x (d.v x + d.v y) ((d.v x).toNat + (d.v y).toNat > 255)) m.mem
    | 0x5 => m.next (d.setFlag x (d.v x - d.v y) (d.v y ≤ d.v x)) m.mem
    | 0x6 => m.next (d.setFlag x (d.v x >>> 1) ((d.v x).getLsbD 0)) m.mem
    | 0x7 => m.next (d.setFlag x (d.v y - d.v x) (d.v x ≤ d.v y)) m.mem
    | 0xE => m.next (d.setFlag x (d.v x <<< 1) ((d.v x).getLsbD 7)) m.mem
    | _ => none
  | 0x9 => if lo % 16 = 0 then m.skip (d.v x ≠ d.v y) else none
  | 0xA => m.next { d with i := BitVec.ofNat 16 nnn } m.mem
  | 0xB => some { m with pc := nnn + (d.v 0).toNat }
  | 0xC => m.next (d.set x (input &&& kk)) m.mem
  | 0xD =>
    let r := w.draw d.screen (d.v x) (d.v y) (sprite m.mem d.i.toNat (lo % 16))
    m.next ({ d with screen := r.1 }.set 15 (if r.2 then 1 else 0)) m.mem
  | 0xE => match lo with
    | 0x9E => m.skip (d.keys (d.v x))
    | 0xA1 => m.skip (!d.keys (d.v x))
    | _ => none
  | _ => match lo with
    | 0x07 => m.next (d.set x d.dt) m.mem
    | 0x0A => m.next (d.set x (input &&& 15)) m.mem
    | 0x15 => m.next { d with dt := d.v x } m.mem
    | 0x18 => m.next { d with st := d.v x } m.mem
    | 0x1E => m.next { d with i := d.i + (d.v x).setWidth 16 } m.mem
    | 0x29 => m.next { d with i := w.digit (d.v x) } m.mem
    | 0x33 => m.next d (d.storeDigits x m.mem)
    | 0x55 => m.next d (d.store x m.mem)
    | 0x65 => m.next (d.load x m.mem) m.mem
    | _ => none

/-- What an instruction of the source text does to registers, timers, screen and memory. -/
def performs {S : Type} (w : World S) (input : U8) (op : Operation) (d : Chip8 S) (mem : Memory) : Chip8 S × Memory :=
  if op.1 = "cls".toList then ({ d with screen := w.clear }, mem)
  else if op.1 = "ld".toList then match op.2 with
    | [.generalPurposeRegister x, .numericLiteral k] => (d.set x.toNat (k.setWidth 8), mem)
    | [.generalPurposeRegister x, .generalPurposeRegister y] => (d.set x.toNat (d.v y.toNat), mem)
    | [.indexRegister, .numericLiteral a] => ({ d with i := a.setWidth 16 }, mem)
    | [.generalPurposeRegister x, .delayTimer] => (d.set x.toNat d.dt, mem)
    | [.generalPurposeRegister x, .keypadRegister] => (d.set x.toNat (input &&& 15), mem)
    | [.delayTimer, .generalPurposeRegister x] => ({ d with dt := d.v x.toNat }, mem)
    | [.soundTimer, .generalPurposeRegister x] => ({ d with st := d.v x.toNat }, mem)
    | [.sprite, .generalPurposeRegister x] => ({ d with i := w.digit (d.v x.toNat) }, mem)
    | [.bcd, .generalPurposeRegister x] => (d, d.storeDigits x.toNat mem)
    | [.indexRegisterIndirect, .generalPurposeRegister x] => (d, d.store x.toNat mem)
    | [.generalPurposeRegister x, .indexRegisterIndirect] => (d.load x.toNat mem, mem)
    | [.indexRegister, .indexRegisterIndirect] => ({ d with i := w.indirect mem d.i }, mem)
    | _ => (d, mem)
  else if op.1 = "add".toList then match op.2 with
    | [.generalPurposeRegister x, .numericLiteral k] => (d.set x.toNat (d.v x.toNat + k.setWidth 8), mem)
    | [.generalPurposeRegister x, .generalPurposeRegister y] =>
      (d.setFlag x.toNat (d.v x.toNat + d.v y.toNat) ((d.v x.toNat).toNat + (d.v y.toNat).toNat > 255), mem)
    | [.indexRegister, .generalPurposeRegister x] => ({ d with i := d.i + (d.v x.toNat).setWidth 16 }, mem)
    | _ => (d, mem)
  else match op.2 with
    | [.generalPurposeRegister x, .generalPurposeRegister y] =>
      if op.1 = "or".toList then (d.set x.toNat (d.v x.toNat ||| d.v y.toNat), mem)
      else if op.1 = "and".toList then (d.set x.toNat (d.v x.toNat &&& d.v y.toNat), mem)
      else if op.1 = "xor".toList then (d.set x.toNat (d.v x.toNat ^^^ d.v y.toNat), mem)
      else if op.1 = "sub".toList then (d.setFlag x.toNat (d.v x.toNat - d.v y.toNat) (d.v y.toNat ≤ d.v x.toNat), mem)
      else if op.1 = "subn".toList then (d.setFlag x.toNat (d.v y.toNat - d.v x.toNat) (d.v x.toNat ≤ d.v y.toNat), mem)
      else (d, mem)
    | [.generalPurposeRegister x] =>
      if op.1 = "shr".toList then (d.setFlag x.toNat (d.v x.toNat >>> 1) ((d.v x.toNat).getLsbD 0), mem)
      else if op.1 = "shl".toList then (d.setFlag x.toNat (d.v x.toNat <<< 1) ((d.v x.toNat).getLsbD 7), mem)
      else (d, mem)
    | [.generalPurposeRegister x, .numericLiteral k] =>
      if op.1 = "rnd".toList then (d.set x.toNat (input &&& k.setWidth 8), mem) else (d, mem)
    | [.generalPurposeRegister x, .generalPurposeRegister y, .numericLiteral n] =>
      if op.1 = "drw".toList then
        let r := w.draw d.screen (d.v x.toNat) (d.v y.toNat) (sprite mem d.i.toNat n.toNat)
        ({ d with screen := r.1 }.set 15 (if r.2 then 1 else 0), mem)
      else (d, mem)
    | _ => (d, mem)

/-- The tests of the instructions that skip. -/
def passes {S : Type} (op : Operation) (d : Chip8 S) : Prop :=
  (op.1 = "se".toList ∧ ∃ x k, op.2 = [.generalPurposeRegister x, .numericLiteral k] ∧ d.v x.toNat = k.setWidth 8) ∨
  (op.1 = "se".toList ∧ ∃ x y, op.2 = [.generalPurposeRegister x, .generalPurposeRegister y] ∧ d.v x.toNat = d.v y.toNat) ∨
  (op.1 = "sne".toList ∧ ∃ x k, op.2 = [.generalPurposeRegister x, .numericLiteral k] ∧ d.v x.toNat ≠ k.setWidth 8) ∨
  (op.1 = "sne".toList ∧ ∃ x y, op.2 = [.generalPurposeRegister x, .generalPurposeRegister y] ∧ d.v x.toNat ≠ d.v y.toNat) ∨
  (op.1 = "skp".toList ∧ ∃ x, op.2 = [.generalPurposeRegister x] ∧ d.keys (d.v x.toNat) = true) ∨
  (op.1 = "sknp".toList ∧ ∃ x, op.2 = [.generalPurposeRegister x] ∧ d.keys (d.v x.toNat) = false)

/-- The meaning of the instructions of the source text. The second component of the state is the inputs to come; each
instruction gets one, needed or not. -/
def chip8 {S : Type} (w : World S) : Semantics (Chip8 S × List U8) where
  does op s mem s' mem' := ∃ input, s.2 = input :: s'.2 ∧ performs w input op s.1 mem = (s'.1, mem')
  test op s := passes op s.1
  v0 s := (s.1.v 0).toNat

/-- Some instructions, one after the other, with an input for each. Each time, the interpreter meets `ok` before. -/
inductive Interpreted {S : Type} (w : World S) (ok : Machine S → Prop) : List U8 → Machine S → Machine S → Prop where
  | nil {m : Machine S} : Interpreted w ok [] m m
  | cons {input : U8} {inputs : List U8} {m m' m'' : Machine S} : ok m → interpret w input m = some m' →
    Interpreted w ok inputs m' m'' → Interpreted w ok (input :: inputs) m m''

/-- At a jump by `V0` of the source text, `V0` has one of the values with `tables`. -/
def Indexed {S : Type} (nodes : List Node) (tables : Nat → Prop) (m : Machine S) : Prop :=
  ∀ i op, InstructionAt nodes i m.pc → Spells nodes i op → op.1 = "jp".toList → op.2.length = 2 → tables (m.data.v 0).toNat

end C8S.Spec
