import Verif.Sm2.Exchange
import Verif.EC.Eval
/-!
# The examples of GM/T 0003.5-2012 and of the tests in /repo, run on the model

Tests of the model, not proofs of a property: the kernel runs the model on the numbers that the standard prints in its
appendices for this curve, and on those of /repo/sm2/sm2_test.go.
-/
namespace Verif.Props
open Verif Verif.Sm2 EC

/-- The private key of the standard's examples for signing and encryption, with the public key and the nonce. -/
def stdKey : PrivateKey := ⟨0x3945208F7B2144B13F36E38AC6D39F95889393692860B51A42FB81EF4DF7C5B8⟩
def stdPub : PublicKey :=
  ⟨0x09F9DF311E5421A150DD7D161E4BC5C672179FAD1833FC076BB08FF356F35020, 0xCCEA490CE26775A52DC6EA718CC1AA600AED05FBF35E084A6632F6072DA9AD13⟩
def stdNonce : Bytes := toBE 32 0x59276E27D506861A16680F3AD9C02DCCEF3CC1FA3CDBE4CE6D54B80DEAC1BC21
/-- "message digest" -/
def stdMessage : Bytes := toBE 14 0x6D65737361676520646967657374
/-- "encryption standard" -/
def stdPlain : Bytes := toBE 19 0x656E6372797074696F6E207374616E64617264
def stdR : Int := 0xF5A03B0648D2C4630EEAC513E1BB81A15944DA3827D5B74143AC7EACEEE720B3
def stdS : Int := 0xB1B6AA29DF212FD8763182BC0D421CA1BB9038FD1F7F42D4840B69C485BBC1AA

/-! ## The multiplications, one at a time -/

theorem std_dG : scalarBaseMult cv (intBytes 0x3945208F7B2144B13F36E38AC6D39F95889393692860B51A42FB81EF4DF7C5B8) = .ok (0x09F9DF311E5421A150DD7D161E4BC5C672179FAD1833FC076BB08FF356F35020, 0xCCEA490CE26775A52DC6EA718CC1AA600AED05FBF35E084A6632F6072DA9AD13) := by
  unfold scalarBaseMult; rw [scalarMult_eq_F]; decide +kernel
theorem std_kG : scalarBaseMult cv (intBytes 0x59276E27D506861A16680F3AD9C02DCCEF3CC1FA3CDBE4CE6D54B80DEAC1BC21) = .ok (0x04EBFC718E8D1798620432268E77FEB6415E2EDE0E073C0F4F640ECD2E149A73, 0xE858F9D81E5430A57B36DAAB8F950A3C64E6EE6A63094D99283AFF767E124DF0) := by
  unfold scalarBaseMult; rw [scalarMult_eq_F]; decide +kernel
theorem std_kP : scalarMult cv (0x09F9DF311E5421A150DD7D161E4BC5C672179FAD1833FC076BB08FF356F35020, 0xCCEA490CE26775A52DC6EA718CC1AA600AED05FBF35E084A6632F6072DA9AD13) (intBytes 0x59276E27D506861A16680F3AD9C02DCCEF3CC1FA3CDBE4CE6D54B80DEAC1BC21) = .ok (0x335e18d751e51f040e27d468138b7ab1dc86ad7f981d7d416222fd6ab3ed230d, 0xab743ebcfb22d64f7b6ab791f70658f25b48fa93e54064fdbfbed3f0bd847ac9) := by
  rw [scalarMult_eq_F]; decide +kernel
theorem std_sG : scalarBaseMult cv (intBytes 0xB1B6AA29DF212FD8763182BC0D421CA1BB9038FD1F7F42D4840B69C485BBC1AA) = .ok (0x2b9ce14e3c8d1ffc46d693fa0b54f2bdc4825a506607655de22894b5c99d3746, 0x277bfe04d1e526b4e1c32726435761fbce0997c26390919c4417b3a0a8639a59) := by
  unfold scalarBaseMult; rw [scalarMult_eq_F]; decide +kernel
theorem std_tP : scalarMult cv (0x09F9DF311E5421A150DD7D161E4BC5C672179FAD1833FC076BB08FF356F35020, 0xCCEA490CE26775A52DC6EA718CC1AA600AED05FBF35E084A6632F6072DA9AD13) (intBytes 0xa756e53127f3f43b851c47cfeefd9e43a2d133ca258ef4ea73fbf4683acda13a) = .ok (0xfdac1efaa770e4635885ca1bbfb360a584b238fb2902ecf09ddc935f60bf4f9b, 0xb89aa9263d5632f6ee82222e4d63198e78e095c24042cbe715c23f711422d74c) := by
  rw [scalarMult_eq_F]; decide +kernel
theorem std_hC : scalarMult cv (0x04EBFC718E8D1798620432268E77FEB6415E2EDE0E073C0F4F640ECD2E149A73, 0xE858F9D81E5430A57B36DAAB8F950A3C64E6EE6A63094D99283AFF767E124DF0) (intBytes sm2H) = .ok (0x04EBFC718E8D1798620432268E77FEB6415E2EDE0E073C0F4F640ECD2E149A73, 0xE858F9D81E5430A57B36DAAB8F950A3C64E6EE6A63094D99283AFF767E124DF0) := by
  rw [scalarMult_eq_F]; decide +kernel
theorem std_dC : scalarMult cv (0x04EBFC718E8D1798620432268E77FEB6415E2EDE0E073C0F4F640ECD2E149A73, 0xE858F9D81E5430A57B36DAAB8F950A3C64E6EE6A63094D99283AFF767E124DF0) (intBytes 0x3945208F7B2144B13F36E38AC6D39F95889393692860B51A42FB81EF4DF7C5B8) = .ok (0x335e18d751e51f040e27d468138b7ab1dc86ad7f981d7d416222fd6ab3ed230d, 0xab743ebcfb22d64f7b6ab791f70658f25b48fa93e54064fdbfbed3f0bd847ac9) := by
  rw [scalarMult_eq_F]; decide +kernel
theorem repo_dG : scalarBaseMult cv (intBytes 0x5DD701828C424B84C5D56770ECF7C4FE882E654CAC53C7CC89A66B1709068B9D) = .ok (0xFF6712D3A7FC0D1B9E01FF471A87EA87525E47C7775039D19304E554DEFE0913, 0xF632025F692776D4C13470ECA36AC85D560E794E1BCCF53D82C015988E0EB956) := by
  unfold scalarBaseMult; rw [scalarMult_eq_F]; decide +kernel
theorem repo_sG : scalarBaseMult cv (intBytes 0xD9248480342AC8513CCDF0F89A2250DC8F6EB4F2471E144E9A812E0AF497F801) = .ok (0xb9b3c474987faedeb3f2eb05d2e664ac34520ef57b792c10958b6173ea0c55c1, 0x2858ee43eda046974e30955306826d440813b77c265fc50017a4aefdddba44b9) := by
  unfold scalarBaseMult; rw [scalarMult_eq_F]; decide +kernel
theorem repo_tP : scalarMult cv (0xFF6712D3A7FC0D1B9E01FF471A87EA87525E47C7775039D19304E554DEFE0913, 0xF632025F692776D4C13470ECA36AC85D560E794E1BCCF53D82C015988E0EB956) (intBytes 0xfa60f15720016d26ff9e9c317cbf94f4c63ffa6cc836e796ff4375e21c1b1163) = .ok (0x985c40e15509f12a9eccd901cbb4656aee340753e9b896448e783a73ce655cf6, 0x5b95d61f9248c6b9c244064cefc4ea783b2c8a479b701b95c0e86e602dcf525b) := by
  rw [scalarMult_eq_F]; decide +kernel

/-! ## Signatures -/

example : calculatePubKey stdKey = .ok stdPub := by
  unfold calculatePubKey
  rw [show stdKey.D = 0x3945208F7B2144B13F36E38AC6D39F95889393692860B51A42FB81EF4DF7C5B8 from rfl, std_dG]; rfl

/-- The hash value of the identity, `Z_A`, and of the message, `e`. -/
example : getZ stdPub.X stdPub.Y defaultUserId = .ok (toBE 32 0xB2E14C5C79C6DF5B85F4FE7ED8DB7A262B9DA7E07CCB0EA9F4747B8CCDA8A4F3) := by
  decide +kernel
theorem std_e : calculateE 0x09F9DF311E5421A150DD7D161E4BC5C672179FAD1833FC076BB08FF356F35020 0xCCEA490CE26775A52DC6EA718CC1AA600AED05FBF35E084A6632F6072DA9AD13 defaultUserId stdMessage =
    .ok 0xF0B43E94BA45ACCAACE692ED534382EB17E6AB5A19CE7B31F4486FDFC0D28640 := by decide +kernel

theorem std_nonce : nextK [some stdNonce] cv.N = .ok (0x59276E27D506861A16680F3AD9C02DCCEF3CC1FA3CDBE4CE6D54B80DEAC1BC21, []) := by decide +kernel

/-- The signature. -/
theorem std_sign : signToRS stdKey none stdMessage [some stdNonce] = .ok (stdR, stdS) := by
  unfold signToRS
  rw [show stdKey.D = 0x3945208F7B2144B13F36E38AC6D39F95889393692860B51A42FB81EF4DF7C5B8 from rfl, std_dG, Res.ok_bind]
  dsimp only [Option.getD_none]
  rw [std_e, Res.ok_bind]
  have inner : signInner 0xF0B43E94BA45ACCAACE692ED534382EB17E6AB5A19CE7B31F4486FDFC0D28640 [some stdNonce] = .ok (0x59276E27D506861A16680F3AD9C02DCCEF3CC1FA3CDBE4CE6D54B80DEAC1BC21, stdR, []) := by
    unfold signInner
    rw [show [some stdNonce].length + 1 = 2 from rfl]
    unfold forLoop
    rw [std_nonce, Res.ok_bind]
    dsimp only
    rw [std_kG, Res.ok_bind]
    decide +kernel
  rw [show [some stdNonce].length + 1 = 2 from rfl]
  unfold forLoop
  rw [inner, Res.ok_bind]
  decide +kernel

/-- It is accepted. -/
theorem std_verify : verifyByRS stdPub none stdMessage stdR stdS = .ok true := by
  unfold verifyByRS
  rw [if_neg (by decide +kernel), if_neg (by decide +kernel)]
  dsimp only [Option.getD_none]
  rw [show stdPub.X = 0x09F9DF311E5421A150DD7D161E4BC5C672179FAD1833FC076BB08FF356F35020 from rfl, show stdPub.Y = 0xCCEA490CE26775A52DC6EA718CC1AA600AED05FBF35E084A6632F6072DA9AD13 from rfl, std_e, Res.ok_bind,
    if_neg (by decide +kernel), show stdS = 0xB1B6AA29DF212FD8763182BC0D421CA1BB9038FD1F7F42D4840B69C485BBC1AA from rfl, std_sG, Res.ok_bind,
    show (stdR + 0xB1B6AA29DF212FD8763182BC0D421CA1BB9038FD1F7F42D4840B69C485BBC1AA) % cv.N = 0xa756e53127f3f43b851c47cfeefd9e43a2d133ca258ef4ea73fbf4683acda13a by decide +kernel, std_tP, Res.ok_bind]
  decide +kernel

/-! ## Encryption -/

/-- The parts of the ciphertext: point, text, hash. -/
def stdC1 : Bytes := 4 :: (toBE 32 0x04EBFC718E8D1798620432268E77FEB6415E2EDE0E073C0F4F640ECD2E149A73 ++
  toBE 32 0xE858F9D81E5430A57B36DAAB8F950A3C64E6EE6A63094D99283AFF767E124DF0)
def stdC2 : Bytes := toBE 19 0x21886CA989CA9C7D58087307CA93092D651EFA
def stdC3 : Bytes := toBE 32 0x59983C18F809E262923C53AEC295D30383B54E39D609D160AFCB1908D0BD8766

theorem std_encryptLoop : encryptLoop stdPub stdPlain [some stdNonce] = .ok (stdC1, stdC2, (0x335e18d751e51f040e27d468138b7ab1dc86ad7f981d7d416222fd6ab3ed230d, 0xab743ebcfb22d64f7b6ab791f70658f25b48fa93e54064fdbfbed3f0bd847ac9)) := by
  unfold encryptLoop
  rw [show [some stdNonce].length + 1 = 2 from rfl]
  unfold forLoop
  dsimp only
  rw [std_nonce, Res.ok_bind]
  dsimp only
  rw [std_kG, Res.ok_bind, show marshal cv (0x04EBFC718E8D1798620432268E77FEB6415E2EDE0E073C0F4F640ECD2E149A73, 0xE858F9D81E5430A57B36DAAB8F950A3C64E6EE6A63094D99283AFF767E124DF0) = .ok stdC1 by decide +kernel, Res.ok_bind,
    show stdPub.X = 0x09F9DF311E5421A150DD7D161E4BC5C672179FAD1833FC076BB08FF356F35020 from rfl, show stdPub.Y = 0xCCEA490CE26775A52DC6EA718CC1AA600AED05FBF35E084A6632F6072DA9AD13 from rfl, std_kP, Res.ok_bind]
  decide +kernel

example : encrypt stdPub stdPlain C1C3C2 [some stdNonce] = .ok (stdC1 ++ stdC3 ++ stdC2) := by
  unfold encrypt
  rw [std_encryptLoop, Res.ok_bind]
  decide +kernel
example : encrypt stdPub stdPlain C1C2C3 [some stdNonce] = .ok (stdC1 ++ stdC2 ++ stdC3) := by
  unfold encrypt
  rw [std_encryptLoop, Res.ok_bind]
  decide +kernel
example : decrypt stdKey (stdC1 ++ stdC3 ++ stdC2) C1C3C2 = .ok stdPlain := by
  unfold decrypt
  dsimp only
  rw [show slice (stdC1 ++ stdC3 ++ stdC2) 0 ((((cv.bitSize + 7) >>> 3) * 2 + 1 : Nat) : Int) = .ok stdC1 by decide +kernel, Res.ok_bind,
    show unmarshal cv stdC1 = some (0x04EBFC718E8D1798620432268E77FEB6415E2EDE0E073C0F4F640ECD2E149A73, 0xE858F9D81E5430A57B36DAAB8F950A3C64E6EE6A63094D99283AFF767E124DF0) by decide +kernel]
  dsimp only
  rw [std_hC, Res.ok_bind, if_neg (by decide), show stdKey.D = 0x3945208F7B2144B13F36E38AC6D39F95889393692860B51A42FB81EF4DF7C5B8 from rfl, std_dC, Res.ok_bind]
  decide +kernel

/-! ## The signature in /repo/sm2/sm2_test.go:203-207, made by another program -/

def repoPub : PublicKey := ⟨0xFF6712D3A7FC0D1B9E01FF471A87EA87525E47C7775039D19304E554DEFE0913, 0xF632025F692776D4C13470ECA36AC85D560E794E1BCCF53D82C015988E0EB956⟩
def repoMessage : Bytes := toBE 32 0x0102030405060708010203040506070801020304050607080102030405060708
def repoSign : Bytes :=
  toBE 71 0x30450220213C6CD6EBD6A4D5C2D0AB38E29D441836D1457A8118D34864C247D727831962022100D9248480342AC8513CCDF0F89A2250DC8F6EB4F2471E144E9A812E0AF497F801

example : calculatePubKey ⟨0x5DD701828C424B84C5D56770ECF7C4FE882E654CAC53C7CC89A66B1709068B9D⟩ = .ok repoPub := by
  unfold calculatePubKey
  rw [repo_dG]; rfl

/-- `TestVerify` (/repo/sm2/sm2_test.go:239-255). -/
theorem repo_verify : verify repoPub none repoMessage repoSign = .ok true := by
  unfold verify
  rw [show unmarshalSign repoSign = .ok (0x213C6CD6EBD6A4D5C2D0AB38E29D441836D1457A8118D34864C247D727831962, 0xD9248480342AC8513CCDF0F89A2250DC8F6EB4F2471E144E9A812E0AF497F801) by decide +kernel]
  dsimp only
  unfold verifyByRS
  rw [if_neg (by decide +kernel), if_neg (by decide +kernel)]
  dsimp only [Option.getD_none]
  rw [show calculateE repoPub.X repoPub.Y defaultUserId repoMessage = .ok 0xd75136a590e7cc488f6638c9b3aa91a30f4218f056da57205b9472cb8f6721d4 by decide +kernel, Res.ok_bind,
    if_neg (by decide +kernel), repo_sG, Res.ok_bind,
    show (0x213C6CD6EBD6A4D5C2D0AB38E29D441836D1457A8118D34864C247D727831962 + 0xD9248480342AC8513CCDF0F89A2250DC8F6EB4F2471E144E9A812E0AF497F801 : Int) % cv.N = 0xfa60f15720016d26ff9e9c317cbf94f4c63ffa6cc836e796ff4375e21c1b1163 by decide +kernel,
    show (repoPub.X, repoPub.Y) = (0xFF6712D3A7FC0D1B9E01FF471A87EA87525E47C7775039D19304E554DEFE0913, 0xF632025F692776D4C13470ECA36AC85D560E794E1BCCF53D82C015988E0EB956) from rfl, repo_tP, Res.ok_bind]
  decide +kernel

end Verif.Props
