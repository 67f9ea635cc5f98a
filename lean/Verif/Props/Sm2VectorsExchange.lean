import Verif.Sm2.Exchange
import Verif.EC.Eval
/-!
# The key exchange of GM/T 0003.5-2012, run on the model

Tests of the model, not proofs of a property; see `Sm2Vectors.lean`.
-/
namespace Verif.Props
open Verif Verif.Sm2 EC

/-! ## The multiplications, one at a time -/

theorem stdPA_mult : scalarBaseMult cv (intBytes 0x81EB26E941BB5AF16DF116495F90695272AE2CD63D6C4AE1678418BE48230029) = .ok (0x160e12897df4edb61dd812feb96748fbd3ccf4ffe26aa6f6db9540af49c94232, 0x4a7dad08bb9a459531694beb20aa489d6649975e1bfcf8c4741b78b4b223007f) := by
  unfold scalarBaseMult; rw [scalarMult_eq_F]; decide +kernel
theorem stdQA_mult : scalarBaseMult cv (intBytes 0xD4DE15474DB74D06491C440D305E012400990F3E390C7E87153C12DB2EA60BB3) = .ok (0x64ced1bdbc99d590049b434d0fd73428cf608a5db8fe5ce07f15026940bae40e, 0x376629c7ab21e7db260922499ddb118f07ce8eaae3e7720afef6a5cc062070c0) := by
  unfold scalarBaseMult; rw [scalarMult_eq_F]; decide +kernel
theorem stdPB_mult : scalarBaseMult cv (intBytes 0x785129917D45A9EA5437A59356B82338EAADDA6CEB199088F14AE10DEFA229B5) = .ok (0x6ae848c57c53c7b1b5fa99eb2286af078ba64c64591b8b566f7357d576f16dfb, 0xee489d771621a27b36c5c7992062e9cd09a9264386f3fbea54dff69305621c4d) := by
  unfold scalarBaseMult; rw [scalarMult_eq_F]; decide +kernel
theorem stdQB_mult : scalarBaseMult cv (intBytes 0x7E07124814B309489125EAED101113164EBF0F3458C5BD88335C1F9D596243D6) = .ok (0xacc27688a6f7b706098bc91ff3ad1bff7dc2802cdb14ccccdb0a90471f9bd707, 0x2fedac0494b2ffc4d6853876c79b8f301c6573ad0aa50f39fc87181e1a1b46fe) := by
  unfold scalarBaseMult; rw [scalarMult_eq_F]; decide +kernel
theorem std_m1b : scalarMult cv (0x160e12897df4edb61dd812feb96748fbd3ccf4ffe26aa6f6db9540af49c94232, 0x4a7dad08bb9a459531694beb20aa489d6649975e1bfcf8c4741b78b4b223007f) (intBytes 0xd0429637f5a6d5d1e6c545235169df85231163060a654ecba0f657fd629e8dd9) = .ok (0x3d14d9da6ae4f1553238a2c5fa761b586f93fe79571e75ec31bde2da1944acbc, 0xa08b9ad450dacbb98b88d322414cbae26cecad8a9bce70093d0bcd13875ce322) := by
  rw [scalarMult_eq_F]; decide +kernel
theorem std_m2b : scalarMult cv (0x64ced1bdbc99d590049b434d0fd73428cf608a5db8fe5ce07f15026940bae40e, 0x376629c7ab21e7db260922499ddb118f07ce8eaae3e7720afef6a5cc062070c0) (intBytes 0xf090791476c633ad0dc2998cab97b0ffa5800626b433bc16e8b765bc75a73598) = .ok (0xc8b568edf42191d8d5da5fd6cd325c70df7506e484bff1d68888d528c00fd353, 0x5fc813e0794420b0018fa87c6aff851c9b6069d3779cb9c3f3aeb45e49442f93) := by
  rw [scalarMult_eq_F]; decide +kernel
theorem std_m1a : scalarMult cv (0x6ae848c57c53c7b1b5fa99eb2286af078ba64c64591b8b566f7357d576f16dfb, 0xee489d771621a27b36c5c7992062e9cd09a9264386f3fbea54dff69305621c4d) (intBytes 0x3d68c0c06dc40f17b9ddfe0093d3c0e4969ed1124a187fa8ad02f81e3c11cce6) = .ok (0x48aa0104c256b852c99b5498f82ec3d34ef26fc3804eaea179da7b6e45299cb, 0xb1be60999446a3c64bdce8d98fb226f52d8f5ac632fda1521cdd74d0e4ccc878) := by
  rw [scalarMult_eq_F]; decide +kernel
theorem std_m2a : scalarMult cv (0xacc27688a6f7b706098bc91ff3ad1bff7dc2802cdb14ccccdb0a90471f9bd707, 0x2fedac0494b2ffc4d6853876c79b8f301c6573ad0aa50f39fc87181e1a1b46fe) (intBytes 0x20b34e8f94d2b962b9cc15ada9f3e7c83601a2c02e4bacf0d6610b668a9aae3f) = .ok (0x95755e616eae5eac13403d7eadc4729fb446c41a3fbb8fbd971a551de2b5b94f, 0xdc3c9aed2cf0f4c04521d9435b475ddcac2fd9311798b38f28afd324aad7c493) := by
  rw [scalarMult_eq_F]; decide +kernel

/-! ## Key exchange -/

def stdDA : PrivateKey := ⟨0x81EB26E941BB5AF16DF116495F90695272AE2CD63D6C4AE1678418BE48230029⟩
def stdRA : PrivateKey := ⟨0xD4DE15474DB74D06491C440D305E012400990F3E390C7E87153C12DB2EA60BB3⟩
def stdDB : PrivateKey := ⟨0x785129917D45A9EA5437A59356B82338EAADDA6CEB199088F14AE10DEFA229B5⟩
def stdRB : PrivateKey := ⟨0x7E07124814B309489125EAED101113164EBF0F3458C5BD88335C1F9D596243D6⟩
def stdPA : PublicKey := ⟨0x160e12897df4edb61dd812feb96748fbd3ccf4ffe26aa6f6db9540af49c94232, 0x4a7dad08bb9a459531694beb20aa489d6649975e1bfcf8c4741b78b4b223007f⟩
def stdQA : PublicKey := ⟨0x64ced1bdbc99d590049b434d0fd73428cf608a5db8fe5ce07f15026940bae40e, 0x376629c7ab21e7db260922499ddb118f07ce8eaae3e7720afef6a5cc062070c0⟩
def stdPB : PublicKey := ⟨0x6ae848c57c53c7b1b5fa99eb2286af078ba64c64591b8b566f7357d576f16dfb, 0xee489d771621a27b36c5c7992062e9cd09a9264386f3fbea54dff69305621c4d⟩
def stdQB : PublicKey := ⟨0xacc27688a6f7b706098bc91ff3ad1bff7dc2802cdb14ccccdb0a90471f9bd707, 0x2fedac0494b2ffc4d6853876c79b8f301c6573ad0aa50f39fc87181e1a1b46fe⟩
/-- `S_1 = S_B` and `S_2 = S_A`. -/
def stdS1 : Bytes := toBE 32 0xD3A0FE15DEE185CEAE907A6B595CC32A266ED7B3367E9983A896DC32FA20F8EB
def stdS2 : Bytes := toBE 32 0x18C7894B3816DF16CF07B05C5EC0BEF5D655D58F779CC1B400A4F3884644DB88
def stdShared : Bytes := toBE 16 0x6C89347354DE2484C60B4AB1FDE4C6E5

theorem stdPA_eq : calculatePubKey stdDA = .ok stdPA := by
  unfold calculatePubKey; rw [show stdDA.D = 0x81EB26E941BB5AF16DF116495F90695272AE2CD63D6C4AE1678418BE48230029 from rfl, stdPA_mult]; rfl
theorem stdQA_eq : calculatePubKey stdRA = .ok stdQA := by
  unfold calculatePubKey; rw [show stdRA.D = 0xD4DE15474DB74D06491C440D305E012400990F3E390C7E87153C12DB2EA60BB3 from rfl, stdQA_mult]; rfl
theorem stdPB_eq : calculatePubKey stdDB = .ok stdPB := by
  unfold calculatePubKey; rw [show stdDB.D = 0x785129917D45A9EA5437A59356B82338EAADDA6CEB199088F14AE10DEFA229B5 from rfl, stdPB_mult]; rfl
theorem stdQB_eq : calculatePubKey stdRB = .ok stdQB := by
  unfold calculatePubKey; rw [show stdRB.D = 0x7E07124814B309489125EAED101113164EBF0F3458C5BD88335C1F9D596243D6 from rfl, stdQB_mult]; rfl

/-- `Z_A` and `Z_B` of the standard. -/
def stdAz : Bytes := toBE 32 0x3B85A57179E11E7E513AA622991F2CA74D1807A0BD4D4B38F90987A17AC245B1
def stdBz : Bytes := toBE 32 0x79C988D63229D97EF19FE02CA1056E01E6A7411ED24694AA8F834F4A4AB022F7

/-- The key, the inner hash and the confirmation values, from the common point. -/
theorem std_shared : kdfForExch 0xc558b44bee5301d9f52b44d939bb59584d75b9034dd6a9fc826872109a65739f 0x3252b35b191d8ae01cd122c025204334c5eacf68a0cb4854c6a7d367ecad4de7 stdAz stdBz 128 = .ok stdShared := by
  decide +kernel
def stdInner : Bytes := toBE 32 0x90e2a628e4f57abd78339ea33f967d11a154117bea442f7b627d4f4dd047b7f6
theorem std_inner : calculateInnerHash 0xc558b44bee5301d9f52b44d939bb59584d75b9034dd6a9fc826872109a65739f stdAz stdBz stdQA.X stdQA.Y stdQB.X stdQB.Y =
    .ok stdInner := by decide +kernel
theorem std_s1 : s1 0x3252b35b191d8ae01cd122c025204334c5eacf68a0cb4854c6a7d367ecad4de7 stdInner = .ok stdS1 := by decide +kernel
theorem std_s2 : s2 0x3252b35b191d8ae01cd122c025204334c5eacf68a0cb4854c6a7d367ecad4de7 stdInner = .ok stdS2 := by decide +kernel

/-- B's side gives the standard's key of 128 bits and both confirmation values. -/
theorem std_responderU : calculateU 127 stdDB stdRB stdQB stdPA stdQA = .ok (0xc558b44bee5301d9f52b44d939bb59584d75b9034dd6a9fc826872109a65739f, 0x3252b35b191d8ae01cd122c025204334c5eacf68a0cb4854c6a7d367ecad4de7) := by
  unfold calculateU
  dsimp only
  rw [show sm2H * (stdDB.D + reduce stdQB.X 127 * stdRB.D) % cv.N = 0xd0429637f5a6d5d1e6c545235169df85231163060a654ecba0f657fd629e8dd9 by decide +kernel,
    show 0xd0429637f5a6d5d1e6c545235169df85231163060a654ecba0f657fd629e8dd9 * reduce stdQA.X 127 % cv.N = 0xf090791476c633ad0dc2998cab97b0ffa5800626b433bc16e8b765bc75a73598 by decide +kernel,
    show (stdPA.X, stdPA.Y) = (0x160e12897df4edb61dd812feb96748fbd3ccf4ffe26aa6f6db9540af49c94232, 0x4a7dad08bb9a459531694beb20aa489d6649975e1bfcf8c4741b78b4b223007f) from rfl, show (stdQA.X, stdQA.Y) = (0x64ced1bdbc99d590049b434d0fd73428cf608a5db8fe5ce07f15026940bae40e, 0x376629c7ab21e7db260922499ddb118f07ce8eaae3e7720afef6a5cc062070c0) from rfl,
    std_m1b, Res.ok_bind, std_m2b, Res.ok_bind]
  decide +kernel

theorem std_responder : calculateKeyWithConfirmation false 128 none stdDB stdRB (some defaultUserId) stdPA stdQA (some defaultUserId) =
    .ok ⟨stdShared, stdS1, stdS2⟩ := by
  unfold calculateKeyWithConfirmation
  dsimp only [Option.getD_some]
  rw [if_neg (by simp), stdPB_eq, Res.ok_bind,
    show getZ stdPB.X stdPB.Y defaultUserId = .ok stdBz by decide +kernel, Res.ok_bind,
    show getZ stdPA.X stdPA.Y defaultUserId = .ok stdAz by decide +kernel, Res.ok_bind,
    show cv.bitSize / 2 - 1 = 127 from rfl, stdQB_eq, Res.ok_bind, std_responderU, Res.ok_bind]
  rw [if_neg (by simp)]
  unfold responderPart
  dsimp only
  rw [std_shared, Res.ok_bind, std_inner, Res.ok_bind, std_s1, Res.ok_bind, std_s2, Res.ok_bind]

/-- A's side accepts B's value and has the same key. -/
theorem std_initiatorU : calculateU 127 stdDA stdRA stdQA stdPB stdQB = .ok (0xc558b44bee5301d9f52b44d939bb59584d75b9034dd6a9fc826872109a65739f, 0x3252b35b191d8ae01cd122c025204334c5eacf68a0cb4854c6a7d367ecad4de7) := by
  unfold calculateU
  dsimp only
  rw [show sm2H * (stdDA.D + reduce stdQA.X 127 * stdRA.D) % cv.N = 0x3d68c0c06dc40f17b9ddfe0093d3c0e4969ed1124a187fa8ad02f81e3c11cce6 by decide +kernel,
    show 0x3d68c0c06dc40f17b9ddfe0093d3c0e4969ed1124a187fa8ad02f81e3c11cce6 * reduce stdQB.X 127 % cv.N = 0x20b34e8f94d2b962b9cc15ada9f3e7c83601a2c02e4bacf0d6610b668a9aae3f by decide +kernel,
    show (stdPB.X, stdPB.Y) = (0x6ae848c57c53c7b1b5fa99eb2286af078ba64c64591b8b566f7357d576f16dfb, 0xee489d771621a27b36c5c7992062e9cd09a9264386f3fbea54dff69305621c4d) from rfl, show (stdQB.X, stdQB.Y) = (0xacc27688a6f7b706098bc91ff3ad1bff7dc2802cdb14ccccdb0a90471f9bd707, 0x2fedac0494b2ffc4d6853876c79b8f301c6573ad0aa50f39fc87181e1a1b46fe) from rfl,
    std_m1a, Res.ok_bind, std_m2a, Res.ok_bind]
  decide +kernel

theorem std_initiator : calculateKeyWithConfirmation true 128 (some stdS1) stdDA stdRA (some defaultUserId) stdPB stdQB (some defaultUserId) =
    .ok ⟨stdShared, [], stdS2⟩ := by
  unfold calculateKeyWithConfirmation
  dsimp only [Option.getD_some]
  rw [if_neg (by simp), stdPA_eq, Res.ok_bind,
    show getZ stdPA.X stdPA.Y defaultUserId = .ok stdAz by decide +kernel, Res.ok_bind,
    show getZ stdPB.X stdPB.Y defaultUserId = .ok stdBz by decide +kernel, Res.ok_bind,
    show cv.bitSize / 2 - 1 = 127 from rfl, stdQA_eq, Res.ok_bind, std_initiatorU, Res.ok_bind]
  rw [if_pos rfl]
  unfold initiatorPart
  dsimp only
  rw [std_shared, Res.ok_bind, std_inner, Res.ok_bind, std_s1, Res.ok_bind, if_neg (by simp), std_s2, Res.ok_bind]

end Verif.Props
