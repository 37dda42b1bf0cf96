import Verif.Model.Main

/-
The fixtures of /repo/tests, replayed on the model: the model's object text for `X.S` is `X.hex`, byte for byte.
These are tests of the model's fidelity, not property proofs.
-/

namespace C8S

/-- The object text of a source text; `none` when it is rejected. -/
private def objectText (source : String) : Run (Option Str) := do
  let tokens ← scan "-".toList source.toList
  match ← parse tokens with
  | .error _ => return none
  | .ok nodes =>
    match ← assemble nodes with
    | .error _ => return none
    | .ok ranges => return some (← ihexRepresentationOfDataRanges ranges)

/-- `test.S` and `test.hex`. -/
example : objectText (
    ";\n"
    ++ "; Copyright 2016 The c8s Developers. See the COPYRIGHT\n"
    ++ "; file at the top-level directory of this distribution.\n"
    ++ ";\n"
    ++ "; Licensed under the MIT license <LICENSE-MIT or http://opensource.org/licenses/MIT>.\n"
    ++ "; All files in the project carrying such notice may not be copied, modified, or \n"
    ++ "; distributed except according to those terms.\n"
    ++ ";\n"
    ++ "\n"
    ++ ".org $000\n"
    ++ "message:\n"
    ++ "  .db \"Hello, World!\", $00\n"
    ++ "\n"
    ++ ".org $200\n"
    ++ "main:\n"
    ++ "  ; Load the Index register with the address of message.\n"
    ++ "  ld i, message\n"
    ++ "  trap\n")
  = .ret (some (
    ":0E00000048656C6C6F2C20576F726C64210089\n"
    ++ ":04020000A00000FA60\n"
    ++ ":00000001FF\n").toList) := by decide +kernel

/-- `test_constants.S` and `test_constants.hex`. -/
example : objectText (
    "\n"
    ++ ".org $000\n"
    ++ "CONST_12B:  .equ    $FFF \n"
    ++ "CONST_08B:  .equ    255\n"
    ++ "CONST_04B:  .equ    15\n"
    ++ "ZERO:       .equ    0\n"
    ++ "\n"
    ++ "test:\n"
    ++ "  se    v0, CONST_08B\n"
    ++ "  se    v0, 255\n"
    ++ "  sne   v0, CONST_04B\n"
    ++ "  sne   v0, 15\n"
    ++ "  ld    v0, CONST_08B\n"
    ++ "  ld    v0, 255\n"
    ++ "  add   v0, CONST_04B\n"
    ++ "  add   v0, 15\n"
    ++ "  rnd   v0, CONST_08B\n"
    ++ "  rnd   v0, 255\n"
    ++ "  drw   v0, v1, CONST_04B\n"
    ++ "  drw   v0, v1, 15\n"
    ++ "  ld    v0, test\n"
    ++ "  ld    v0, 0\n")
  = .ret (some (
    ":1000000030FF30FF400F400F60FF60FF700F700F38\n"
    ++ ":0C001000C0FFC0FFD01FD01F60006000C8\n"
    ++ ":00000001FF\n").toList) := by decide +kernel

/-- `test_special_instructions.S` and `test_special_instructions.hex`. -/
example : objectText (
    ";\n"
    ++ "; Copyright 2016 The c8s Developers. See the COPYRIGHT\n"
    ++ "; file at the top-level directory of this distribution.\n"
    ++ ";\n"
    ++ "; Licensed under the MIT license <LICENSE-MIT or http://opensource.org/licenses/MIT>.\n"
    ++ "; All files in the project carrying such notice may not be copied, modified, or \n"
    ++ "; distributed except according to those terms.\n"
    ++ ";\n"
    ++ "\n"
    ++ ".ORG $200\n"
    ++ "\n"
    ++ "  TRAP                    ; 00FA\n"
    ++ "  TRAPRET                 ; 00F9\n")
  = .ret (some (
    ":0402000000FA00F907\n"
    ++ ":00000001FF\n").toList) := by decide +kernel

/-- `test_directives.S` is rejected by this version of the code (its `.equ` follows no label), although `test_directives.hex` exists. -/
example : objectText (
    "\n"
    ++ ".org $200\n"
    ++ "natural_label: ; Value should be $200\n"
    ++ "  jp CONSTANT\n"
    ++ "CONSTANT: .equ $FFE\n"
    ++ "  .equ $FFF\n") = .ret none := by decide +kernel

/-! The two larger fixtures are evaluated (`#guard`) instead of being checked by the kernel, which takes long. -/

-- `test_standard_instructions.S` and `test_standard_instructions.hex`.
#guard objectText (
    ";\n"
    ++ "; Copyright 2016 The c8s Developers. See the COPYRIGHT\n"
    ++ "; file at the top-level directory of this distribution.\n"
    ++ ";\n"
    ++ "; Licensed under the MIT license <LICENSE-MIT or http://opensource.org/licenses/MIT>.\n"
    ++ "; All files in the project carrying such notice may not be copied, modified, or \n"
    ++ "; distributed except according to those terms.\n"
    ++ ";\n"
    ++ "\n"
    ++ ".ORG $000\n"
    ++ "start_of_memory:\n"
    ++ ".ORG $100\n"
    ++ "in_reserved_area:\n"
    ++ ".ORG $200\n"
    ++ "\n"
    ++ "  NOP                     ; 0000\n"
    ++ "  CLS                     ; 00E0\n"
    ++ "  RET                     ; 00EE\n"
    ++ "  TRAPRET                 ; 00F9\n"
    ++ "  TRAP                    ; 00FA\n"
    ++ "\n"
    ++ "; SYS $address            ; 0nnn\n"
    ++ "  \n"
    ++ "  JP $000                 ; 1000\n"
    ++ "  JP start_of_memory      ; 1000\n"
    ++ "  JP #100                 ; 1100\n"
    ++ "  JP in_reserved_area     ; 1100\n"
    ++ "  JP 4095                 ; 1FFF\n"
    ++ "\n"
    ++ "  CALL $000               ; 2000\n"
    ++ "  CALL start_of_memory    ; 2000\n"
    ++ "  CALL #100               ; 2100\n"
    ++ "  CALL in_reserved_area   ; 2100\n"
    ++ "  CALL 4095               ; 2FFF\n"
    ++ "\n"
    ++ "  SE V0, 4                ; 3004\n"
    ++ "  SE V7, #F               ; 370F\n"
    ++ "  SE VF, 255              ; 3FFF\n"
    ++ "\n"
    ++ "  SNE V0, 4               ; 4004\n"
    ++ "  SNE V7, #F              ; 470F\n"
    ++ "  SNE VF, $FF             ; 4FFF\n"
    ++ "\n"
    ++ "  SE V0, V7               ; 5070\n"
    ++ "  SE V7, VF               ; 57F0\n"
    ++ "  SE VF, VF               ; 5FF0\n"
    ++ "\n"
    ++ "  LD V0, 0                ; 6000\n"
    ++ "  LD V1, $7               ; 6107\n"
    ++ "  LD VF, #FF              ; 6FFF\n"
    ++ "\n"
    ++ "  ADD V0, 0               ; 7000\n"
    ++ "  ADD V1, $7              ; 7107\n"
    ++ "  ADD VF, #FF             ; 7FFF\n"
    ++ "\n"
    ++ "  LD V0, V0               ; 8000\n"
    ++ "  LD V1, V7               ; 8170\n"
    ++ "  LD VF, VF               ; 8FF0\n"
    ++ "\n"
    ++ "  OR V0, V0               ; 8001\n"
    ++ "  OR V1, V7               ; 8171\n"
    ++ "  OR VF, VF               ; 8FF1\n"
    ++ "\n"
    ++ "  AND V0, V0              ; 8002\n"
    ++ "  AND V1, V7              ; 8172\n"
    ++ "  AND VF, VF              ; 8FF2\n"
    ++ "\n"
    ++ "  XOR V0, V0              ; 8003\n"
    ++ "  XOR V1, V7              ; 8173\n"
    ++ "  XOR VF, VF              ; 8FF3\n"
    ++ "\n"
    ++ "  ADD V0, V0              ; 8004\n"
    ++ "  ADD V1, V7              ; 8174\n"
    ++ "  ADD VF, VF              ; 8FF4\n"
    ++ "\n"
    ++ "  SUB V0, V0              ; 8005\n"
    ++ "  SUB V1, V7              ; 8175\n"
    ++ "  SUB VF, VF              ; 8FF5\n"
    ++ "\n"
    ++ "  SHR V0                  ; 8006\n"
    ++ "  SHR V1                  ; 8106\n"
    ++ "  SHR VF                  ; 8F06\n"
    ++ "\n"
    ++ "  SUBN V0, V0             ; 8007\n"
    ++ "  SUBN V1, V7             ; 8177\n"
    ++ "  SUBN VF, VF             ; 8FF7\n"
    ++ "\n"
    ++ "  SHL V0                  ; 800E\n"
    ++ "  SHL V1                  ; 810E\n"
    ++ "  SHL VF                  ; 8F0E\n"
    ++ "\n"
    ++ "  SNE V0, V7              ; 9070\n"
    ++ "  SNE V7, VF              ; 97F0\n"
    ++ "  SNE VF, VF              ; 9FF0\n"
    ++ "\n"
    ++ "  LD I, 0                 ; A000\n"
    ++ "  LD I, #FF               ; A0FF\n"
    ++ "  LD I, $567              ; A567\n"
    ++ "  LD I, start_of_memory   ; A000\n"
    ++ "  LD I, in_reserved_area  ; A100\n"
    ++ "\n"
    ++ "  JP V0, 0                ; B000\n"
    ++ "  JP V0, #FF              ; B0FF\n"
    ++ "  JP V0, $567             ; B567\n"
    ++ "  JP V0, start_of_memory  ; B000\n"
    ++ "  JP V0, in_reserved_area ; B100\n"
    ++ "\n"
    ++ "  RND V0, 4               ; C004\n"
    ++ "  RND V7, #F              ; C70F\n"
    ++ "  RND VF, 255             ; CFFF\n"
    ++ "\n"
    ++ "  DRW V0, V0, $0          ; D000\n"
    ++ "  DRW V1, V1, #1          ; D111\n"
    ++ "  DRW V2, VF, 1           ; D2F1\n"
    ++ "  DRW VF, V2, 15          ; DF2F\n"
    ++ "\n"
    ++ "  SKP V0                  ; E09E\n"
    ++ "  SKP V1                  ; E19E\n"
    ++ "  SKP VF                  ; EF9E\n"
    ++ "\n"
    ++ "  SKNP V0                 ; E0A1\n"
    ++ "  SKNP V1                 ; E1A1\n"
    ++ "  SKNP VF                 ; EFA1\n"
    ++ "\n"
    ++ "  LD V0, DT               ; F007\n"
    ++ "  LD V1, DT               ; F107\n"
    ++ "  LD VF, DT               ; FF07\n"
    ++ "\n"
    ++ "  LD V0, K                ; F00A\n"
    ++ "  LD V1, K                ; F10A\n"
    ++ "  LD VF, K                ; FF0A\n"
    ++ "\n"
    ++ "  LD DT, V0               ; F015\n"
    ++ "  LD DT, V1               ; F115\n"
    ++ "  LD DT, VF               ; FF15\n"
    ++ "\n"
    ++ "  LD ST, V0               ; F018\n"
    ++ "  LD ST, V1               ; F118\n"
    ++ "  LD ST, VF               ; FF18\n"
    ++ "\n"
    ++ "  ADD I, V0               ; F01E\n"
    ++ "  ADD I, V1               ; F11E\n"
    ++ "  ADD I, VF               ; FF1E\n"
    ++ "\n"
    ++ "  LD F, V0                ; F029\n"
    ++ "  LD F, V1                ; F129\n"
    ++ "  LD F, VF                ; FF29\n"
    ++ "\n"
    ++ "  LD B, V0                ; F033\n"
    ++ "  LD B, V1                ; F133\n"
    ++ "  LD B, VF                ; FF33\n"
    ++ "\n"
    ++ "  LD [I], V0              ; F055\n"
    ++ "  LD [I], V1              ; F155\n"
    ++ "  LD [I], VF              ; FF55\n"
    ++ "\n"
    ++ "  LD V0, [I]              ; F065\n"
    ++ "  LD V1, [I]              ; F165\n"
    ++ "  LD VF, [I]              ; FF65\n")
  = .ret (some (
    ":10020000000000E000EE00F900FA100010001100FC\n"
    ++ ":1002100011001FFF20002000210021002FFF3004CB\n"
    ++ ":10022000370F3FFF4004470F4FFF507057F05FF00C\n"
    ++ ":10023000600061076FFF700071077FFF80008170B1\n"
    ++ ":100240008FF0800181718FF1800281728FF28003C3\n"
    ++ ":1002500081738FF3800481748FF4800581758FF52D\n"
    ++ ":10026000800681068F06800781778FF7800E810ECA\n"
    ++ ":100270008F0E907097F09FF0A000A0FFA567A000E0\n"
    ++ ":10028000A100B000B0FFB567B000B100C004C70F57\n"
    ++ ":10029000CFFFD000D111D2F1DF2FE09EE19EEF9E83\n"
    ++ ":1002A000E0A1E1A1EFA1F007F107FF07F00AF10AD1\n"
    ++ ":1002B000FF0AF015F115FF15F018F118FF18F01EE0\n"
    ++ ":1002C000F11EFF1EF029F129FF29F033F133FF332E\n"
    ++ ":0C02D000F055F155FF55F065F165FF6534\n"
    ++ ":00000001FF\n").toList)

-- `test_PONG.S` and `test_PONG.hex`.
#guard objectText (
    "; Note: this source has been modified by David WINTER on 17 SEP 1997\n"
    ++ ";       (only the syntax changed: it has been converted in CHIPPER)\n"
    ++ "; Note: this shorce has been modified by Martin Mroz on 26 JUN 2016\n"
    ++ ";       (only the syntax changed: it has been converted for c8s)\n"
    ++ ";\n"
    ++ "; The source could be optimized to save some bytes, but I didn't wanted\n"
    ++ "; to modify it since there is no specific interest in this.\n"
    ++ ";\n"
    ++ "; NOTE THAT THE ORIGINAL SOURCE HAD SEVERAL ERRORS !!!\n"
    ++ ";\n"
    ++ "; ---------------------------------------------------------------------------\n"
    ++ ";\n"
    ++ "; From: vervalin@AUSTIN.LOCKHEED.COM (Paul Vervalin)\n"
    ++ ";\n"
    ++ ";\n"
    ++ ";        OK folks here it is!  PONG for the HP48SX written in CHIP-48.\n"
    ++ ";        Some things you should know before you start playing are...\n"
    ++ ";        1)  This is my first attempt at programming in CHIP-48, so I\n"
    ++ ";            know there are probably a few things that could have been\n"
    ++ ";            done better.\n"
    ++ ";        2)  The game never ends.  It keeps score, but only up to 9 for\n"
    ++ ";            each player, then it will roll over to 0.  Sorry, its the\n"
    ++ ";            only way I could think of to do it.  So, you have to play\n"
    ++ ";            whoever gets to a number first, wins.\n"
    ++ ";        3)  It is kind of slow, but then there are two paddles and ball\n"
    ++ ";            moving around all at once.\n"
    ++ ";        4)  The player who got the last point gets the serve...\n"
    ++ ";        5)  Keys 7 and 4 (on the HP48) control the up and down of the\n"
    ++ ";            left player and the / and * keys control the up and down of\n"
    ++ ";            the right player.\n"
    ++ ";\n"
    ++ ";        I think that's about it, so have fun!\n"
    ++ ";\n"
    ++ "; This is a detailed breakdown of the game, sooooooo, if anybody wants to\n"
    ++ "; make it better, or change it in some way, it might be a little easier.\n"
    ++ "; Also, about half of the code was in some way extracted from the BRIX\n"
    ++ "; program.  So, thanks to whoever wrote the original BRIX game.\n"
    ++ ";\n"
    ++ ";\n"
    ++ "; Registers\n"
    ++ "; ---------\n"
    ++ "; V0-V3  are scratch registers\n"
    ++ "; V4     X coord. of score\n"
    ++ "; V5     Y coord. of score\n"
    ++ "; V6     X coord. of ball\n"
    ++ "; V7     Y coord. of ball\n"
    ++ "; V8     X direction of ball motion\n"
    ++ "; V9     Y direction of ball motion\n"
    ++ "; VA     X coord. of left player paddle\n"
    ++ "; VB     Y coord. of left player paddle\n"
    ++ "; VC     X coord. of right player paddle\n"
    ++ "; VD     Y coord. of right player paddle\n"
    ++ "; VE     Score\n"
    ++ "; VF     collision detection\n"
    ++ "\n"
    ++ ".ORG $200\n"
    ++ "\n"
    ++ "    LD  VA, 2  ; Set left player X coord.\n"
    ++ "    LD  VB, 12 ; Set left player Y coord.\n"
    ++ "    LD  VC, 63 ; Set right player X coord.\n"
    ++ "    LD  VD, 12 ; Set right player Y coord.\n"
    ++ "\n"
    ++ "    LD  I,  Paddle ; Get address of paddle sprite\n"
    ++ "    DRW VA, VB, 6  ; Draw left paddle\n"
    ++ "    DRW VC, VD, 6  ; Draw right paddle\n"
    ++ "\n"
    ++ "    LD  VE, 0       ; Set score to 00\n"
    ++ "    CALL Draw_Score ; Draw score\n"
    ++ "\n"
    ++ "    LD  V6, 3 ; Set X coord. of ball to 3\n"
    ++ "    LD  V8, 2 ; Set ball X direction to right\n"
    ++ "\n"
    ++ "Big_Loop:\n"
    ++ "\n"
    ++ "    LD  V0, #60 ; Set V0=delay before ball launch\n"
    ++ "    LD  DT, V0  ; Set delay timer to V0\n"
    ++ "DT_Loop:        ;\n"
    ++ "    LD  V0, DT  ; Read delay timer into V0\n"
    ++ "    SE  V0, 0   ; Skip next instruction if V0=0\n"
    ++ "    JP  DT_Loop ; Read again delay timer if not 0\n"
    ++ "\n"
    ++ "    RND V7, 23  ; Set Y coord. to rand # AND 23 (0...23)\n"
    ++ "    ADD V7, 8   ; And adjust it to is 8...31\n"
    ++ "\n"
    ++ "    LD  V9, #FF   ; Set ball Y direction to up\n"
    ++ "    LD  I, Ball   ; Get address of ball sprite\n"
    ++ "    DRW V6, V7, 1 ; Draw ball\n"
    ++ "\n"
    ++ "Padl_Loop:\n"
    ++ "    LD  I, Paddle ; Get address of paddle sprite\n"
    ++ "    DRW VA, VB, 6 ; Draw left paddle\n"
    ++ "    DRW VC, VD, 6 ; Draw right paddle\n"
    ++ "\n"
    ++ "    LD  V0, 1   ; Set V0 to KEY 1\n"
    ++ "    SKNP V0     ; Skip next instruction if KEY in 1 is not pressed\n"
    ++ "    ADD VB, #FE ; Subtract 2 from Y coord. of left paddle\n"
    ++ "\n"
    ++ "    LD  V0, 4   ; Set V0 to KEY 4\n"
    ++ "    SKNP V0     ; Skip next instruction if KEY in 4 is not pressed\n"
    ++ "    ADD VB, 2   ; Add 2 to Y coord. of left paddle\n"
    ++ "\n"
    ++ "    LD  V0, 31    ; Set V0 to max Y coord.  | These three lines are here to\n"
    ++ "    AND VB, V0    ; AND VB with V0          | adjust the paddle position if\n"
    ++ "    DRW VA, VB, 6 ; Draw left paddle        | it is out of the screen\n"
    ++ "\n"
    ++ "    LD  V0, #0C ; Set V0 to KEY C\n"
    ++ "    SKNP V0     ; Skip next instruction if KEY in C is not pressed\n"
    ++ "    ADD VD, #FE ; Subtract 2 from Y coord. of right paddle\n"
    ++ "\n"
    ++ "    LD  V0, #0D ; Set V0 to KEY D\n"
    ++ "    SKNP V0     ; Skip next instruction if KEY in D is not pressed\n"
    ++ "    ADD VD, 2   ; Add 2 to Y coord. of right paddle\n"
    ++ "\n"
    ++ "    LD  V0, 31    ; Set V0 to max Y coord.  | These three lines are here to\n"
    ++ "    AND VD, V0    ; AND VD with V0          | adjust the paddle position if\n"
    ++ "    DRW VC, VD, 6 ; Draw right paddle       | it is out of the screen\n"
    ++ "\n"
    ++ "    LD  I, Ball   ; Get address of ball sprite\n"
    ++ "    DRW V6, V7, 1 ; Draw ball\n"
    ++ "\n"
    ++ "    ADD V6, V8  ; Compute next X coord of the ball\n"
    ++ "    ADD V7, V9  ; Compute next Y coord of the ball\n"
    ++ "\n"
    ++ "    LD  V0, 63  ; Set V0 to max X location\n"
    ++ "    AND V6, V0  ; AND V6 with V0\n"
    ++ "\n"
    ++ "    LD  V1, 31  ; Set V1 to max Y location\n"
    ++ "    AND V7, V1  ; AND V7 with V1\n"
    ++ "\n"
    ++ "    SNE V6, 2      ; Skip next instruction if ball not at left\n"
    ++ "    JP  Left_Side  ;\n"
    ++ "\n"
    ++ "    SNE V6, 63     ; Skip next instruction if ball not at right\n"
    ++ "    JP  Right_Side ;\n"
    ++ "\n"
    ++ "Ball_Loop:\n"
    ++ "    SNE V7, 31  ; Skip next instruction if ball not at bottom\n"
    ++ "    LD  V9, #FF ; Set Y direction to up\n"
    ++ "\n"
    ++ "    SNE V7, 0   ; Skip next instruction if ball not at top\n"
    ++ "    LD  V9, 1   ; Set Y direction to down\n"
    ++ "\n"
    ++ "    DRW V6, V7, 1 ; Draw ball\n"
    ++ "    JP  Padl_Loop ;\n"
    ++ "\n"
    ++ "Left_Side:\n"
    ++ "    LD  V8, 2    ; Set X direction to right\n"
    ++ "    LD  V3, 1    ; Set V3 to 1 in case left player misses ball\n"
    ++ "    LD  V0, V7   ; Set V0 to V7 Y coord. of ball\n"
    ++ "    SUB V0, VB   ; Subtract position of paddle from ball\n"
    ++ "    JP  Pad_Coll ; Check for collision\n"
    ++ "\n"
    ++ "Right_Side:\n"
    ++ "    LD  V8, 254  ; Set X direction to left\n"
    ++ "    LD  V3, 10   ; Set V3 to 10 in case right player misses ball\n"
    ++ "    LD  V0, V7   ; Set V0 to V7 Y coord. of ball\n"
    ++ "    SUB V0, VD   ; Subtract position of paddle from ball\n"
    ++ "\n"
    ++ "Pad_Coll:\n"
    ++ "    SE  VF, 1     ; Skip next instruction if ball not above paddle\n"
    ++ "    JP  Ball_Lost ;\n"
    ++ "\n"
    ++ "    LD  V1, 2    ; Set V1 to 02\n"
    ++ "    SUB V0, V1   ; Subtract V1 from V0\n"
    ++ "    SE  VF, 1    ; Skip next instr. if ball not at top of paddle\n"
    ++ "    JP  Ball_Top ; Ball at top of paddle\n"
    ++ "\n"
    ++ "    SUB V0, V1   ; Subtract another 2 from V0\n"
    ++ "    SE  VF, 1    ; Skip next instr. if ball not at middle of paddle\n"
    ++ "    JP  Pad_Hit  ; Ball in middle of paddle\n"
    ++ "\n"
    ++ "    SUB V0, V1   ; Subtract another 2 from V0\n"
    ++ "    SE  VF, 1    ; Skip next instr. if ball not at bottom of paddle\n"
    ++ "    JP  Ball_Bot ; Ball at bottom of paddle\n"
    ++ "\n"
    ++ "Ball_Lost:\n"
    ++ "    LD  V0, 32  ; Set lost ball beep delay\n"
    ++ "    LD  ST, V0  ; Beep for lost ball\n"
    ++ "\n"
    ++ "    CALL Draw_Score ; Erase previous score\n"
    ++ "    ADD VE, V3      ; Add 1 or 10 to score depending on V3\n"
    ++ "    CALL Draw_Score ; Write new score\n"
    ++ "\n"
    ++ "    LD  V6, 62  ; Set ball X coord. to right side\n"
    ++ "    SE  V3, 1   ; Skip next instr. if right player got point\n"
    ++ "    LD  V6, 3   ; Set ball X coord. to left side\n"
    ++ "    LD  V8, #FE ; Set direction to left\n"
    ++ "    SE  V3, 1   ; Skip next instr. if right player got point\n"
    ++ "    LD  V8, 2   ; Set direction to right\n"
    ++ "    JP Big_Loop ;\n"
    ++ "\n"
    ++ "Ball_Top:\n"
    ++ "    ADD V9, #FF ; Subtract 1 from V9, ball Y direction\n"
    ++ "    SNE V9, #FE ; Skip next instr. if V9 != FE (-2)\n"
    ++ "    LD  V9, #FF ; Set V9=FF (-1)\n"
    ++ "    JP  Pad_Hit\n"
    ++ "\n"
    ++ "Ball_Bot:\n"
    ++ "    ADD V9, 1   ; Add 1 to V9, ball Y direction\n"
    ++ "    SNE V9, 2   ; Skip next instr. if V9 != 02\n"
    ++ "    LD  V9, 1   ; Set V9=01\n"
    ++ "\n"
    ++ "Pad_Hit:\n"
    ++ "    LD  V0, 4   ; Set beep for paddle hit\n"
    ++ "    LD  ST, V0  ; Sound beep\n"
    ++ "\n"
    ++ "    ADD V6, 1   ;\n"
    ++ "    SNE V6, 64  ;\n"
    ++ "    ADD V6, 254 ;\n"
    ++ "\n"
    ++ "    JP  Ball_Loop\n"
    ++ "\n"
    ++ "Draw_Score:\n"
    ++ "    LD  I,  Score   ; Get address of Score\n"
    ++ "    LD  B,  VE      ; Stores in memory BCD representation of VE\n"
    ++ "    LD  V2, [I]     ; Reads V0...V2 in memory, so the score\n"
    ++ "    LD  F,  V1      ; I points to hex char in V1, so the 1st score char\n"
    ++ "    LD  V4, #14     ; Set V4 to the X coord. to draw 1st score char\n"
    ++ "    LD  V5, 0       ; Set V5 to the Y coord. to draw 1st score char\n"
    ++ "    DRW V4, V5, 5   ; Draw 8*5 sprite at (V4,V5) from M[I], so char V1\n"
    ++ "    ADD V4, #15     ; Set X to the X coord. of 2nd score char\n"
    ++ "    LD  F,  V2      ; I points to hex char in V2, so 2nd score char\n"
    ++ "    DRW V4, V5, 5   ; Draw 8*5 sprite at (V4,V5) from M[I], so char V2\n"
    ++ "    RET             ; Return\n"
    ++ "\n"
    ++ "Paddle:\n"
    ++ "    .DB #80, #80\n"
    ++ "    .DB #80, #80\n"
    ++ "    .DB #80, #80\n"
    ++ "\n"
    ++ "Ball:\n"
    ++ "    .DB #80, #00\n"
    ++ "\n"
    ++ "Score:\n"
    ++ "    .DB #00, #00\n"
    ++ "    .DB #00, #00\n")
  = .ret (some (
    ":100200006A026B0C6C3F6D0CA2EADAB6DCD66E00AB\n"
    ++ ":1002100022D4660368026060F015F0073000121AFD\n"
    ++ ":10022000C717770869FFA2F0D671A2EADAB6DCD662\n"
    ++ ":100230006001E0A17BFE6004E0A17B02601F8B02F5\n"
    ++ ":10024000DAB6600CE0A17DFE600DE0A17D02601FCA\n"
    ++ ":100250008D02DCD6A2F0D67186848794603F860238\n"
    ++ ":10026000611F871246021278463F1282471F69FFBC\n"
    ++ ":1002700047006901D671122A68026301807080B557\n"
    ++ ":10028000128A68FE630A807080D53F0112A2610263\n"
    ++ ":1002900080153F0112BA80153F0112C880153F0139\n"
    ++ ":1002A00012C26020F01822D48E3422D4663E33016C\n"
    ++ ":1002B000660368FE33016802121679FF49FE69FF82\n"
    ++ ":1002C00012C87901490269016004F01876014640BC\n"
    ++ ":1002D00076FE126CA2F2FE33F265F1296414650019\n"
    ++ ":1002E000D4557415F229D45500EE8080808080802A\n"
    ++ ":0602F00080000000000088\n"
    ++ ":00000001FF\n").toList)

end C8S
