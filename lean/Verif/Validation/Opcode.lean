import Verif.Model.Opcode

/-
The unit tests of /repo/src/assembler/opcode.rs, replayed on the model. These are tests of the model's fidelity, not
property proofs: every input and expected value is copied from the Rust test of the name given.
-/

namespace C8S

/-- opcode.rs, `test_to_assembly_string`: every pair of its table. -/
example : ([
    (0x0000, "nop"), (0x00E0, "cls"), (0x00EE, "ret"),
    (0x00F8, "ld i, [i]"), (0x00F9, "trapret"), (0x00FA, "trap"),
    (0x1456, "jp $456"), (0x2789, "call $789"), (0x31DE, "se v1, $de"),
    (0x42EF, "sne v2, $ef"), (0x5560, "se v5, v6"), (0x6155, "ld v1, $55"),
    (0x7266, "add v2, $66"), (0x8340, "ld v3, v4"), (0x8561, "or v5, v6"),
    (0x8562, "and v5, v6"), (0x8563, "xor v5, v6"), (0x8564, "add v5, v6"),
    (0x8565, "sub v5, v6"), (0x8566, "shr v5"), (0x8567, "subn v5, v6"),
    (0x856E, "shl v5"), (0x9EF0, "sne ve, vf"), (0xADEF, "ld i, $def"),
    (0xB234, "jp v0, $234"), (0xC18F, "rnd v1, $8f"), (0xD234, "drw v2, v3, $4"),
    (0xE19E, "skp v1"), (0xE1A1, "sknp v1"), (0xF207, "ld v2, dt"),
    (0xF30A, "ld v3, k"), (0xF315, "ld dt, v3"), (0xF318, "ld st, v3"),
    (0xF51E, "add i, v5"), (0xF629, "ld f, v6"), (0xF733, "ld b, v7"),
    (0xFE55, "ld [i], ve"), (0xFF65, "ld vf, [i]")] : List (U16 × String)).all
    (fun p => (Opcode.fromInstruction p.1).toAssemblyString = p.2.toList) = true := by decide +kernel

/-- opcode.rs, `test_from_instruction_round_trips`, over the whole of its range and beyond: see `C26` and `C27`
(`Verif/Props/Opcode.lean`). One instance. -/
example : (Opcode.fromInstruction 0x8126).asInstruction = .ret 0x8126 := by decide +kernel

end C8S
