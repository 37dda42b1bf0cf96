import Verif.Model.Instruction

/-
The unit tests of /repo/src/assembler/instruction.rs, replayed on the model. These are tests of the model's fidelity, not
property proofs: every input and expected value is copied from the Rust test of the name given.
-/

namespace C8S

open Instruction

/-- instruction.rs, `test_error_display`. -/
example : InstructionError.display (.unableToResolveLabel "TEST_LABEL".toList) = "Unable to resolve label TEST_LABEL.".toList := by decide +kernel

/-- instruction.rs, `test_error_display`. -/
example : InstructionError.display (.expectingEightBitValue 0x100) = "Found 12-bit numeric value $100, expecting 8-bit value.".toList := by decide +kernel

/-- instruction.rs, `test_error_display`. -/
example : InstructionError.display (.expectingFourBitValue 0x10) = "Found 8/12-bit numeric value $10, expecting 4-bit value.".toList := by decide +kernel

/-- instruction.rs, `test_error_display`. -/
example : InstructionError.display (.noMatchingFormat "jp".toList (some "register:0".toList)) = "No matching instruction: jp register:0.".toList := by decide +kernel

/-- instruction.rs, `test_error_display`. -/
example : InstructionError.display (.noMatchingFormat "jp".toList none) = "No matching instruction: jp.".toList := by decide +kernel

/-- instruction.rs, `test_nop`. -/
example : fromMnemonicAndParameters "nop".toList [] [] = .ok (.NOP) := by rfl

/-- instruction.rs, `test_cls`. -/
example : fromMnemonicAndParameters "cls".toList [] [] = .ok (.CLS) := by rfl

/-- instruction.rs, `test_deref_i`. -/
example : fromMnemonicAndParameters "ld".toList [.indexRegister, .indexRegisterIndirect] [] = .ok (.DEREF_I) := by rfl

/-- instruction.rs, `test_ret`. -/
example : fromMnemonicAndParameters "ret".toList [] [] = .ok (.RET) := by rfl

/-- instruction.rs, `test_trapret`. -/
example : fromMnemonicAndParameters "trapret".toList [] [] = .ok (.TRAPRET) := by rfl

/-- instruction.rs, `test_trap`. -/
example : fromMnemonicAndParameters "trap".toList [] [] = .ok (.TRAP) := by rfl

/-- instruction.rs, `test_jp`. -/
example : fromMnemonicAndParameters "jp".toList [] [] = .error (.noMatchingFormat "jp".toList none) := by rfl

/-- instruction.rs, `test_jp`. -/
example : fromMnemonicAndParameters "jp".toList [.identifier "TEST_LABEL".toList] [] = .error (.unableToResolveLabel "TEST_LABEL".toList) := by rfl

/-- instruction.rs, `test_jp`. -/
example : fromMnemonicAndParameters "jp".toList [.numericLiteral 0xFFF] [] = .ok (.JP 0xFFF) := by rfl

/-- instruction.rs, `test_jp`. -/
example : fromMnemonicAndParameters "jp".toList [.identifier "TEST_LABEL".toList] [("TEST_LABEL".toList, 0xFFF)] = .ok (.JP 0xFFF) := by rfl

/-- instruction.rs, `test_jp_v0`. -/
example : fromMnemonicAndParameters "jp".toList [.generalPurposeRegister 0] [] = .error (.noMatchingFormat "jp".toList (some "register:0".toList)) := by rfl

/-- instruction.rs, `test_jp_v0`. -/
example : fromMnemonicAndParameters "jp".toList [.generalPurposeRegister 0, .identifier "TEST_LABEL".toList] [] = .error (.unableToResolveLabel "TEST_LABEL".toList) := by rfl

/-- instruction.rs, `test_jp_v0`. -/
example : fromMnemonicAndParameters "jp".toList [.generalPurposeRegister 0, .numericLiteral 0xFFF] [] = .ok (.JP_V0 0xFFF) := by rfl

/-- instruction.rs, `test_jp_v0`. -/
example : fromMnemonicAndParameters "jp".toList [.generalPurposeRegister 0, .identifier "TEST_LABEL".toList] [("TEST_LABEL".toList, 0xFFF)] = .ok (.JP_V0 0xFFF) := by rfl

/-- instruction.rs, `test_call`. -/
example : fromMnemonicAndParameters "call".toList [] [] = .error (.noMatchingFormat "call".toList none) := by rfl

/-- instruction.rs, `test_call`. -/
example : fromMnemonicAndParameters "call".toList [.identifier "TEST_LABEL".toList] [] = .error (.unableToResolveLabel "TEST_LABEL".toList) := by rfl

/-- instruction.rs, `test_call`. -/
example : fromMnemonicAndParameters "call".toList [.numericLiteral 0xFFF] [] = .ok (.CALL 0xFFF) := by rfl

/-- instruction.rs, `test_call`. -/
example : fromMnemonicAndParameters "call".toList [.identifier "TEST_LABEL".toList] [("TEST_LABEL".toList, 0xFFF)] = .ok (.CALL 0xFFF) := by rfl

/-- instruction.rs, `test_se_immediate_and_register_and_keypad`. -/
example : fromMnemonicAndParameters "se".toList [.generalPurposeRegister 1, .generalPurposeRegister 2] [] = .ok (.SE_REGISTER 1 2) := by rfl

/-- instruction.rs, `test_se_immediate_and_register_and_keypad`. -/
example : fromMnemonicAndParameters "se".toList [.generalPurposeRegister 1, .numericLiteral 0xFF] [] = .ok (.SE_IMMEDIATE 1 0xFF) := by rfl

/-- instruction.rs, `test_se_immediate_and_register_and_keypad`. -/
example : fromMnemonicAndParameters "se".toList [.generalPurposeRegister 1, .numericLiteral 0x100] [] = .error (.expectingEightBitValue 0x100) := by rfl

/-- instruction.rs, `test_se_immediate_and_register_and_keypad`. -/
example : fromMnemonicAndParameters "skp".toList [.generalPurposeRegister 1] [] = .ok (.SE_K 1) := by rfl

/-- instruction.rs, `test_se_immediate_label`. -/
example : fromMnemonicAndParameters "se".toList [.generalPurposeRegister 1, .identifier "EIGHT_BITS".toList] [("TWELVE_BITS".toList, 0xFFF), ("EIGHT_BITS".toList, 255), ("FOUR_BITS".toList, 15)] = .ok (.SE_IMMEDIATE 1 0xFF) := by rfl

/-- instruction.rs, `test_se_immediate_label`. -/
example : fromMnemonicAndParameters "se".toList [.generalPurposeRegister 2, .identifier "FOUR_BITS".toList] [("TWELVE_BITS".toList, 0xFFF), ("EIGHT_BITS".toList, 255), ("FOUR_BITS".toList, 15)] = .ok (.SE_IMMEDIATE 2 0x0F) := by rfl

/-- instruction.rs, `test_se_immediate_label`. -/
example : fromMnemonicAndParameters "se".toList [.generalPurposeRegister 2, .identifier "TWELVE_BITS".toList] [("TWELVE_BITS".toList, 0xFFF), ("EIGHT_BITS".toList, 255), ("FOUR_BITS".toList, 15)] = .error (.expectingEightBitValue 0xFFF) := by rfl

/-- instruction.rs, `test_se_immediate_label`. -/
example : fromMnemonicAndParameters "se".toList [.generalPurposeRegister 2, .identifier "INVALID".toList] [("TWELVE_BITS".toList, 0xFFF), ("EIGHT_BITS".toList, 255), ("FOUR_BITS".toList, 15)] = .error (.unableToResolveLabel "INVALID".toList) := by rfl

/-- instruction.rs, `test_sne_immediate_and_register_and_keypad`. -/
example : fromMnemonicAndParameters "sne".toList [.generalPurposeRegister 1, .generalPurposeRegister 2] [] = .ok (.SNE_REGISTER 1 2) := by rfl

/-- instruction.rs, `test_sne_immediate_and_register_and_keypad`. -/
example : fromMnemonicAndParameters "sne".toList [.generalPurposeRegister 1, .numericLiteral 0xFF] [] = .ok (.SNE_IMMEDIATE 1 0xFF) := by rfl

/-- instruction.rs, `test_sne_immediate_and_register_and_keypad`. -/
example : fromMnemonicAndParameters "sne".toList [.generalPurposeRegister 1, .numericLiteral 0x100] [] = .error (.expectingEightBitValue 0x100) := by rfl

/-- instruction.rs, `test_sne_immediate_and_register_and_keypad`. -/
example : fromMnemonicAndParameters "sknp".toList [.generalPurposeRegister 1] [] = .ok (.SNE_K 1) := by rfl

/-- instruction.rs, `test_sne_immediate_label`. -/
example : fromMnemonicAndParameters "sne".toList [.generalPurposeRegister 1, .identifier "EIGHT_BITS".toList] [("TWELVE_BITS".toList, 0xFFF), ("EIGHT_BITS".toList, 255), ("FOUR_BITS".toList, 15)] = .ok (.SNE_IMMEDIATE 1 0xFF) := by rfl

/-- instruction.rs, `test_sne_immediate_label`. -/
example : fromMnemonicAndParameters "sne".toList [.generalPurposeRegister 2, .identifier "FOUR_BITS".toList] [("TWELVE_BITS".toList, 0xFFF), ("EIGHT_BITS".toList, 255), ("FOUR_BITS".toList, 15)] = .ok (.SNE_IMMEDIATE 2 0x0F) := by rfl

/-- instruction.rs, `test_sne_immediate_label`. -/
example : fromMnemonicAndParameters "sne".toList [.generalPurposeRegister 2, .identifier "TWELVE_BITS".toList] [("TWELVE_BITS".toList, 0xFFF), ("EIGHT_BITS".toList, 255), ("FOUR_BITS".toList, 15)] = .error (.expectingEightBitValue 0xFFF) := by rfl

/-- instruction.rs, `test_sne_immediate_label`. -/
example : fromMnemonicAndParameters "sne".toList [.generalPurposeRegister 2, .identifier "INVALID".toList] [("TWELVE_BITS".toList, 0xFFF), ("EIGHT_BITS".toList, 255), ("FOUR_BITS".toList, 15)] = .error (.unableToResolveLabel "INVALID".toList) := by rfl

/-- instruction.rs, `test_ld_immediate_and_register_and_index`. -/
example : fromMnemonicAndParameters "ld".toList [.generalPurposeRegister 1, .generalPurposeRegister 2] [] = .ok (.LD_REGISTER 1 2) := by rfl

/-- instruction.rs, `test_ld_immediate_and_register_and_index`. -/
example : fromMnemonicAndParameters "ld".toList [.generalPurposeRegister 1, .numericLiteral 0xFF] [] = .ok (.LD_IMMEDIATE 1 0xFF) := by rfl

/-- instruction.rs, `test_ld_immediate_and_register_and_index`. -/
example : fromMnemonicAndParameters "ld".toList [.generalPurposeRegister 1, .numericLiteral 0x100] [] = .error (.expectingEightBitValue 0x100) := by rfl

/-- instruction.rs, `test_ld_immediate_label`. -/
example : fromMnemonicAndParameters "ld".toList [.generalPurposeRegister 1, .identifier "EIGHT_BITS".toList] [("TWELVE_BITS".toList, 0xFFF), ("EIGHT_BITS".toList, 255), ("FOUR_BITS".toList, 15)] = .ok (.LD_IMMEDIATE 1 0xFF) := by rfl

/-- instruction.rs, `test_ld_immediate_label`. -/
example : fromMnemonicAndParameters "ld".toList [.generalPurposeRegister 2, .identifier "FOUR_BITS".toList] [("TWELVE_BITS".toList, 0xFFF), ("EIGHT_BITS".toList, 255), ("FOUR_BITS".toList, 15)] = .ok (.LD_IMMEDIATE 2 0x0F) := by rfl

/-- instruction.rs, `test_ld_immediate_label`. -/
example : fromMnemonicAndParameters "ld".toList [.generalPurposeRegister 2, .identifier "TWELVE_BITS".toList] [("TWELVE_BITS".toList, 0xFFF), ("EIGHT_BITS".toList, 255), ("FOUR_BITS".toList, 15)] = .error (.expectingEightBitValue 0xFFF) := by rfl

/-- instruction.rs, `test_ld_immediate_label`. -/
example : fromMnemonicAndParameters "ld".toList [.generalPurposeRegister 2, .identifier "INVALID".toList] [("TWELVE_BITS".toList, 0xFFF), ("EIGHT_BITS".toList, 255), ("FOUR_BITS".toList, 15)] = .error (.unableToResolveLabel "INVALID".toList) := by rfl

/-- instruction.rs, `test_ld_index`. -/
example : fromMnemonicAndParameters "ld".toList [.indexRegister, .identifier "TEST_LABEL".toList] [] = .error (.unableToResolveLabel "TEST_LABEL".toList) := by rfl

/-- instruction.rs, `test_ld_index`. -/
example : fromMnemonicAndParameters "ld".toList [.indexRegister, .numericLiteral 0xFFF] [] = .ok (.LD_I 0xFFF) := by rfl

/-- instruction.rs, `test_ld_index`. -/
example : fromMnemonicAndParameters "ld".toList [.indexRegister, .identifier "TEST_LABEL".toList] [("TEST_LABEL".toList, 0xFFF)] = .ok (.LD_I 0xFFF) := by rfl

/-- instruction.rs, `test_add_immediate_and_register_and_index`. -/
example : fromMnemonicAndParameters "add".toList [.generalPurposeRegister 1, .generalPurposeRegister 2] [] = .ok (.ADD_REGISTER 1 2) := by rfl

/-- instruction.rs, `test_add_immediate_and_register_and_index`. -/
example : fromMnemonicAndParameters "add".toList [.generalPurposeRegister 1, .numericLiteral 0xFF] [] = .ok (.ADD_IMMEDIATE 1 0xFF) := by rfl

/-- instruction.rs, `test_add_immediate_and_register_and_index`. -/
example : fromMnemonicAndParameters "add".toList [.generalPurposeRegister 1, .numericLiteral 0x100] [] = .error (.expectingEightBitValue 0x100) := by rfl

/-- instruction.rs, `test_add_immediate_and_register_and_index`. -/
example : fromMnemonicAndParameters "add".toList [.indexRegister, .generalPurposeRegister 2] [] = .ok (.ADD_I_X 2) := by rfl

/-- instruction.rs, `test_add_immediate_label`. -/
example : fromMnemonicAndParameters "add".toList [.generalPurposeRegister 1, .identifier "EIGHT_BITS".toList] [("TWELVE_BITS".toList, 0xFFF), ("EIGHT_BITS".toList, 255), ("FOUR_BITS".toList, 15)] = .ok (.ADD_IMMEDIATE 1 0xFF) := by rfl

/-- instruction.rs, `test_add_immediate_label`. -/
example : fromMnemonicAndParameters "add".toList [.generalPurposeRegister 2, .identifier "FOUR_BITS".toList] [("TWELVE_BITS".toList, 0xFFF), ("EIGHT_BITS".toList, 255), ("FOUR_BITS".toList, 15)] = .ok (.ADD_IMMEDIATE 2 0x0F) := by rfl

/-- instruction.rs, `test_add_immediate_label`. -/
example : fromMnemonicAndParameters "add".toList [.generalPurposeRegister 2, .identifier "TWELVE_BITS".toList] [("TWELVE_BITS".toList, 0xFFF), ("EIGHT_BITS".toList, 255), ("FOUR_BITS".toList, 15)] = .error (.expectingEightBitValue 0xFFF) := by rfl

/-- instruction.rs, `test_add_immediate_label`. -/
example : fromMnemonicAndParameters "add".toList [.generalPurposeRegister 2, .identifier "INVALID".toList] [("TWELVE_BITS".toList, 0xFFF), ("EIGHT_BITS".toList, 255), ("FOUR_BITS".toList, 15)] = .error (.unableToResolveLabel "INVALID".toList) := by rfl

/-- instruction.rs, `test_and_or_xor_sub_subn_shr_shl`. -/
example : fromMnemonicAndParameters "and".toList [.generalPurposeRegister 1, .generalPurposeRegister 2] [] = .ok (.AND 1 2) := by rfl

/-- instruction.rs, `test_and_or_xor_sub_subn_shr_shl`. -/
example : fromMnemonicAndParameters "or".toList [.generalPurposeRegister 1, .generalPurposeRegister 2] [] = .ok (.OR 1 2) := by rfl

/-- instruction.rs, `test_and_or_xor_sub_subn_shr_shl`. -/
example : fromMnemonicAndParameters "xor".toList [.generalPurposeRegister 1, .generalPurposeRegister 2] [] = .ok (.XOR 1 2) := by rfl

/-- instruction.rs, `test_and_or_xor_sub_subn_shr_shl`. -/
example : fromMnemonicAndParameters "sub".toList [.generalPurposeRegister 1, .generalPurposeRegister 2] [] = .ok (.SUB 1 2) := by rfl

/-- instruction.rs, `test_and_or_xor_sub_subn_shr_shl`. -/
example : fromMnemonicAndParameters "subn".toList [.generalPurposeRegister 1, .generalPurposeRegister 2] [] = .ok (.SUBN 1 2) := by rfl

/-- instruction.rs, `test_and_or_xor_sub_subn_shr_shl`. -/
example : fromMnemonicAndParameters "shr".toList [.generalPurposeRegister 1] [] = .ok (.SHR 1 0) := by rfl

/-- instruction.rs, `test_and_or_xor_sub_subn_shr_shl`. -/
example : fromMnemonicAndParameters "shl".toList [.generalPurposeRegister 1] [] = .ok (.SHL 1 0) := by rfl

/-- instruction.rs, `test_rnd`. -/
example : fromMnemonicAndParameters "rnd".toList [.generalPurposeRegister 1, .numericLiteral 0xFF] [] = .ok (.RND 1 0xFF) := by rfl

/-- instruction.rs, `test_rnd`. -/
example : fromMnemonicAndParameters "rnd".toList [.generalPurposeRegister 1, .numericLiteral 0x100] [] = .error (.expectingEightBitValue 0x100) := by rfl

/-- instruction.rs, `test_rnd_immediate_label`. -/
example : fromMnemonicAndParameters "rnd".toList [.generalPurposeRegister 1, .identifier "EIGHT_BITS".toList] [("TWELVE_BITS".toList, 0xFFF), ("EIGHT_BITS".toList, 255), ("FOUR_BITS".toList, 15)] = .ok (.RND 1 0xFF) := by rfl

/-- instruction.rs, `test_rnd_immediate_label`. -/
example : fromMnemonicAndParameters "rnd".toList [.generalPurposeRegister 2, .identifier "FOUR_BITS".toList] [("TWELVE_BITS".toList, 0xFFF), ("EIGHT_BITS".toList, 255), ("FOUR_BITS".toList, 15)] = .ok (.RND 2 0x0F) := by rfl

/-- instruction.rs, `test_rnd_immediate_label`. -/
example : fromMnemonicAndParameters "rnd".toList [.generalPurposeRegister 2, .identifier "TWELVE_BITS".toList] [("TWELVE_BITS".toList, 0xFFF), ("EIGHT_BITS".toList, 255), ("FOUR_BITS".toList, 15)] = .error (.expectingEightBitValue 0xFFF) := by rfl

/-- instruction.rs, `test_rnd_immediate_label`. -/
example : fromMnemonicAndParameters "rnd".toList [.generalPurposeRegister 2, .identifier "INVALID".toList] [("TWELVE_BITS".toList, 0xFFF), ("EIGHT_BITS".toList, 255), ("FOUR_BITS".toList, 15)] = .error (.unableToResolveLabel "INVALID".toList) := by rfl

/-- instruction.rs, `test_drw`. -/
example : fromMnemonicAndParameters "drw".toList [.generalPurposeRegister 1, .generalPurposeRegister 2, .numericLiteral 0xF] [] = .ok (.DRW 1 2 15) := by rfl

/-- instruction.rs, `test_drw`. -/
example : fromMnemonicAndParameters "drw".toList [.generalPurposeRegister 1, .generalPurposeRegister 2, .numericLiteral 0x10] [] = .error (.expectingFourBitValue 0x10) := by rfl

/-- instruction.rs, `test_drw_immediate_label`. -/
example : fromMnemonicAndParameters "drw".toList [.generalPurposeRegister 1, .generalPurposeRegister 2, .identifier "FOUR_BITS".toList] [("TWELVE_BITS".toList, 0xFFF), ("EIGHT_BITS".toList, 255), ("FOUR_BITS".toList, 15)] = .ok (.DRW 1 2 15) := by rfl

/-- instruction.rs, `test_drw_immediate_label`. -/
example : fromMnemonicAndParameters "drw".toList [.generalPurposeRegister 1, .generalPurposeRegister 2, .identifier "TWELVE_BITS".toList] [("TWELVE_BITS".toList, 0xFFF), ("EIGHT_BITS".toList, 255), ("FOUR_BITS".toList, 15)] = .error (.expectingFourBitValue 0xFFF) := by rfl

/-- instruction.rs, `test_drw_immediate_label`. -/
example : fromMnemonicAndParameters "drw".toList [.generalPurposeRegister 1, .generalPurposeRegister 2, .identifier "EIGHT_BITS".toList] [("TWELVE_BITS".toList, 0xFFF), ("EIGHT_BITS".toList, 255), ("FOUR_BITS".toList, 15)] = .error (.expectingFourBitValue 0xFF) := by rfl

/-- instruction.rs, `test_drw_immediate_label`. -/
example : fromMnemonicAndParameters "drw".toList [.generalPurposeRegister 1, .generalPurposeRegister 2, .identifier "INVALID".toList] [("TWELVE_BITS".toList, 0xFFF), ("EIGHT_BITS".toList, 255), ("FOUR_BITS".toList, 15)] = .error (.unableToResolveLabel "INVALID".toList) := by rfl

/-- instruction.rs, `test_ld_delay_and_sound_timer_and_keypad`. -/
example : fromMnemonicAndParameters "ld".toList [.generalPurposeRegister 15, .delayTimer] [] = .ok (.LD_X_DT 15) := by rfl

/-- instruction.rs, `test_ld_delay_and_sound_timer_and_keypad`. -/
example : fromMnemonicAndParameters "ld".toList [.generalPurposeRegister 15, .keypadRegister] [] = .ok (.LD_X_K 15) := by rfl

/-- instruction.rs, `test_ld_delay_and_sound_timer_and_keypad`. -/
example : fromMnemonicAndParameters "ld".toList [.delayTimer, .generalPurposeRegister 15] [] = .ok (.LD_DT_X 15) := by rfl

/-- instruction.rs, `test_ld_delay_and_sound_timer_and_keypad`. -/
example : fromMnemonicAndParameters "ld".toList [.soundTimer, .generalPurposeRegister 15] [] = .ok (.LD_ST_X 15) := by rfl

/-- instruction.rs, `test_sprite`. -/
example : fromMnemonicAndParameters "ld".toList [.sprite, .generalPurposeRegister 7] [] = .ok (.SPRITE_I 7) := by rfl

/-- instruction.rs, `test_bcd`. -/
example : fromMnemonicAndParameters "ld".toList [.bcd, .generalPurposeRegister 7] [] = .ok (.BCD_I 7) := by rfl

/-- instruction.rs, `test_save`. -/
example : fromMnemonicAndParameters "ld".toList [.indexRegisterIndirect, .generalPurposeRegister 7] [] = .ok (.SAVE_I 7) := by rfl

/-- instruction.rs, `test_restore`. -/
example : fromMnemonicAndParameters "ld".toList [.generalPurposeRegister 7, .indexRegisterIndirect] [] = .ok (.RESTORE_I 7) := by rfl

end C8S
