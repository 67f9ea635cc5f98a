import Verif.Base.Rotate
import Verif.Sm4.Lemmas
/-!
# The linear transform of SM4 on the bytes of a word

For a word and its image under `l` (sm4/sm4.go:190-193) together at least five of the eight bytes are not zero.
-/
namespace Verif.Sm4
open Verif

/-- Byte `k` of a word, 0 the lowest. -/
def byt (x : Word) (k : Nat) : Byte := x.extractLsb' (8 * k) 8

/-- 1 for a byte that is not zero. -/
def nzb (b : Byte) : Nat := if b = 0 then 0 else 1

/-- The number of bytes of a word that are not zero. -/
def nz (x : Word) : Nat := nzb (byt x 3) + nzb (byt x 2) + nzb (byt x 1) + nzb (byt x 0)

/-- A byte at place `k` of a word. -/
def at8 (b : Byte) (k : Nat) : Word := b.setWidth 32 <<< (8 * k)

theorem byt_xor (x y : Word) (k : Nat) : byt (x ^^^ y) k = byt x k ^^^ byt y k := by
  unfold byt
  refine BitVec.eq_of_getLsbD_eq fun i hi => ?_
  simp [hi]

theorem put32_byt (x : Word) : put32 x = [byt x 3, byt x 2, byt x 1, byt x 0] := by
  unfold put32
  simp only [toBE, List.nil_append, List.cons_append]
  have h : ∀ k, byt x k = BitVec.ofNat 8 (x.toNat / 2 ^ (8 * k)) := fun k => by
    apply BitVec.eq_of_toNat_eq
    simp [byt, BitVec.extractLsb'_toNat, Nat.shiftRight_eq_div_pow]
  simp only [h, Nat.div_div_eq_div_mul, Nat.reduceMul, Nat.reducePow, Nat.div_one]

theorem getLsbD_byt (x : Word) (k i : Nat) : (byt x k).getLsbD i = (decide (i < 8) && x.getLsbD (8 * k + i)) := by
  unfold byt; rw [BitVec.getLsbD_extractLsb']

theorem getLsbD_at8 (b : Byte) (k i : Nat) : (at8 b k).getLsbD i = (decide (i < 32) && !decide (i < 8 * k) && b.getLsbD (i - 8 * k)) := by
  unfold at8
  rw [BitVec.getLsbD_shiftLeft, BitVec.getLsbD_setWidth]
  by_cases h : i < 32 <;> by_cases h2 : i < 8 * k <;> simp [h, h2]
  omega

/-- A word is the sum of its bytes. -/
theorem word_split (x : Word) : x = at8 (byt x 3) 3 ^^^ at8 (byt x 2) 2 ^^^ at8 (byt x 1) 1 ^^^ at8 (byt x 0) 0 := by
  refine BitVec.eq_of_getLsbD_eq fun i hi => ?_
  simp only [BitVec.getLsbD_xor, getLsbD_at8, getLsbD_byt]
  rcases (by omega : i < 8 ∨ (8 ≤ i ∧ i < 16) ∨ (16 ≤ i ∧ i < 24) ∨ 24 ≤ i) with h | ⟨h, h'⟩ | ⟨h, h'⟩ | h
  · simp [show i < 16 by omega, show i < 24 by omega, h, hi]
  · simp [show ¬ i < 8 by omega, show i < 24 by omega, h', hi, show i - 8 < 8 by omega, show 8 + (i - 8) = i by omega]
  · simp [show ¬ i < 8 by omega, show ¬ i < 16 by omega, h', hi, show i - 16 < 8 by omega, show 16 + (i - 16) = i by omega, show ¬ i - 8 < 8 by omega]
  · simp [show ¬ i < 8 by omega, show ¬ i < 16 by omega, show ¬ i < 24 by omega, hi, show i - 24 < 8 by omega, show 24 + (i - 24) = i by omega, show ¬ i - 8 < 8 by omega, show ¬ i - 16 < 8 by omega]

theorem xor_z (x : Word) : x ^^^ 0 = x := BitVec.xor_zero
theorem z_xor (x : Word) : 0 ^^^ x = x := BitVec.zero_xor
theorem rot_zero (x : Word) : x.rotateLeft 0 = x :=
  BitVec.eq_of_getLsbD_eq fun i hi => by rw [bit_rot _ _ _ hi]; congr 1; omega

theorem at8_zero (k : Nat) : at8 0 k = 0 := by
  refine BitVec.eq_of_getLsbD_eq fun i _ => ?_
  rw [getLsbD_at8]; simp

theorem nzb_xor (a b : Byte) : nzb (a ^^^ b) ≤ nzb a + nzb b := by
  unfold nzb
  by_cases ha : a = 0
  · subst ha; rw [show (0 : Byte) ^^^ b = b from BitVec.zero_xor]; omega
  · rw [if_neg ha]; split <;> omega

theorem nz_xor (x y : Word) : nz (x ^^^ y) ≤ nz x + nz y := by
  unfold nz
  simp only [byt_xor]
  have := nzb_xor (byt x 3) (byt y 3)
  have := nzb_xor (byt x 2) (byt y 2)
  have := nzb_xor (byt x 1) (byt y 1)
  have := nzb_xor (byt x 0) (byt y 0)
  omega

theorem nzb_zero {b : Byte} (h : nzb b = 0) : b = 0 := by
  unfold nzb at h; split at h
  · assumption
  · omega

theorem nzb_le (b : Byte) : nzb b ≤ 1 := by unfold nzb; split <;> omega

theorem nz_eq_zero {x : Word} (h : nz x = 0) : x = 0 := by
  unfold nz at h
  rw [word_split x, nzb_zero (b := byt x 3) (by omega), nzb_zero (b := byt x 2) (by omega), nzb_zero (b := byt x 1) (by omega),
    nzb_zero (b := byt x 0) (by omega)]
  simp only [at8_zero, xor_z]

theorem l_eq (b : Word) : l b = b ^^^ b.rotateLeft 2 ^^^ b.rotateLeft 10 ^^^ b.rotateLeft 18 ^^^ b.rotateLeft 24 := rfl

theorem l_xor (x y : Word) : l (x ^^^ y) = l x ^^^ l y := by
  simp only [l_eq, rot_xor]
  ac_rfl

theorem l_zero : l 0 = 0 := by decide

theorem l_rot (x : Word) (k : Nat) : l (x.rotateLeft k) = (l x).rotateLeft k := by
  simp only [l_eq, rot_xor, rot_rot, Nat.add_comm]

/-- Applied four times, `l` is a rotation by one byte. -/
theorem l_four (x : Word) : l (l (l (l x))) = x.rotateLeft 8 := by
  have two : ∀ y, l (l y) = y ^^^ y.rotateLeft 16 ^^^ y.rotateLeft 20 := fun y => by
    rw [l_eq (l y)]
    simp only [l_eq, rot_xor, rot_rot, Nat.reduceAdd]
    rw [rot_mod y 34 2 rfl, rot_mod y 36 4 rfl, rot_mod y 42 10 rfl, rot_mod y 48 16 rfl]
    refine BitVec.eq_of_getLsbD_eq fun i _ => ?_
    simp only [BitVec.getLsbD_xor]
    generalize (y.rotateLeft 2).getLsbD i = a2
    generalize (y.rotateLeft 10).getLsbD i = a10
    generalize (y.rotateLeft 18).getLsbD i = a18
    generalize (y.rotateLeft 24).getLsbD i = a24
    generalize (y.rotateLeft 4).getLsbD i = a4
    generalize (y.rotateLeft 12).getLsbD i = a12
    generalize (y.rotateLeft 20).getLsbD i = a20
    generalize (y.rotateLeft 26).getLsbD i = a26
    generalize (y.rotateLeft 28).getLsbD i = a28
    generalize (y.rotateLeft 16).getLsbD i = a16
    generalize y.getLsbD i = a
    revert a a2 a10 a18 a24 a4 a12 a20 a26 a28 a16
    decide
  rw [two, two]
  simp only [rot_xor, rot_rot, Nat.reduceAdd]
  rw [rot_mod x 32 0 rfl, rot_mod x 36 4 rfl, rot_mod x 40 8 rfl]
  rw [rot_zero]
  refine BitVec.eq_of_getLsbD_eq fun i _ => ?_
  simp only [BitVec.getLsbD_xor]
  generalize (x.rotateLeft 16).getLsbD i = a
  generalize (x.rotateLeft 20).getLsbD i = b
  generalize (x.rotateLeft 4).getLsbD i = c
  generalize (x.rotateLeft 8).getLsbD i = e
  generalize x.getLsbD i = g
  revert a b c e g
  decide

theorem l_inj {x y : Word} (h : l x = l y) : x = y := by
  have e := congrArg (fun z => (l (l (l z))).rotateLeft 24) h
  simp only [l_four, rot_rot, Nat.reduceAdd] at e
  rw [rot_mod x 32 0 rfl, rot_mod y 32 0 rfl, rot_zero, rot_zero] at e
  exact e

/-- The inverse of `l`. -/
theorem l_back (x : Word) : (l (l (l (l x)))).rotateLeft 24 = x := by
  rw [l_four, rot_rot, rot_mod x (8 + 24) 0 rfl, rot_zero]

theorem byt_rot (x : Word) : byt (x.rotateLeft 8) 0 = byt x 3 ∧ byt (x.rotateLeft 8) 1 = byt x 0 ∧ byt (x.rotateLeft 8) 2 = byt x 1 ∧
    byt (x.rotateLeft 8) 3 = byt x 2 := by
  refine ⟨?_, ?_, ?_, ?_⟩ <;> refine BitVec.eq_of_getLsbD_eq fun i hi => ?_ <;>
    rw [getLsbD_byt, getLsbD_byt, bit_rot _ _ _ (by omega)] <;> simp only [hi, decide_true, Bool.true_and] <;> congr 1 <;> omega

theorem nz_rot (x : Word) : nz (x.rotateLeft 8) = nz x := by
  unfold nz
  obtain ⟨h0, h1, h2, h3⟩ := byt_rot x
  rw [h0, h1, h2, h3]
  omega

/-- `nz` on numbers, in operations that the kernel does fast. -/
def nzN (z : Nat) : Nat :=
  cond (Nat.beq (z / 16777216 % 256) 0) 0 1 + cond (Nat.beq (z / 65536 % 256) 0) 0 1 + cond (Nat.beq (z / 256 % 256) 0) 0 1 +
    cond (Nat.beq (z % 256) 0) 0 1

theorem nzb_nat (b : Byte) : nzb b = cond (Nat.beq b.toNat 0) 0 1 := by
  unfold nzb
  by_cases h : b = 0
  · subst h; rfl
  · rw [if_neg h]
    have : Nat.beq b.toNat 0 = false := by
      rw [← Bool.not_eq_true, Nat.beq_eq]
      exact fun e => h (BitVec.eq_of_toNat_eq e)
    rw [this]; rfl

theorem nz_nat (x : Word) : nz x = nzN x.toNat := by
  have h : ∀ k, (byt x k).toNat = x.toNat / 2 ^ (8 * k) % 256 := fun k => by
    simp [byt, BitVec.extractLsb'_toNat, Nat.shiftRight_eq_div_pow]
  unfold nz nzN
  simp only [nzb_nat, h, Nat.reduceMul, Nat.reducePow, Nat.div_one]

/-- `l` of the words whose byte 0 is 1, …, 255 and whose other bytes are 0. -/
def colTab0 : List Nat :=
  [0x1040405, 0x208080a, 0x30c0c0f, 0x4101014, 0x5141411, 0x618181e, 0x71c1c1b, 0x8202028, 0x924242d, 0xa282822,
   0xb2c2c27, 0xc30303c, 0xd343439, 0xe383836, 0xf3c3c33, 0x10404050, 0x11444455, 0x1248485a, 0x134c4c5f, 0x14505044,
   0x15545441, 0x1658584e, 0x175c5c4b, 0x18606078, 0x1964647d, 0x1a686872, 0x1b6c6c77, 0x1c70706c, 0x1d747469, 0x1e787866,
   0x1f7c7c63, 0x208080a0, 0x218484a5, 0x228888aa, 0x238c8caf, 0x249090b4, 0x259494b1, 0x269898be, 0x279c9cbb, 0x28a0a088,
   0x29a4a48d, 0x2aa8a882, 0x2bacac87, 0x2cb0b09c, 0x2db4b499, 0x2eb8b896, 0x2fbcbc93, 0x30c0c0f0, 0x31c4c4f5, 0x32c8c8fa,
   0x33ccccff, 0x34d0d0e4, 0x35d4d4e1, 0x36d8d8ee, 0x37dcdceb, 0x38e0e0d8, 0x39e4e4dd, 0x3ae8e8d2, 0x3bececd7, 0x3cf0f0cc,
   0x3df4f4c9, 0x3ef8f8c6, 0x3ffcfcc3, 0x41010140, 0x40050545, 0x4309094a, 0x420d0d4f, 0x45111154, 0x44151551, 0x4719195e,
   0x461d1d5b, 0x49212168, 0x4825256d, 0x4b292962, 0x4a2d2d67, 0x4d31317c, 0x4c353579, 0x4f393976, 0x4e3d3d73, 0x51414110,
   0x50454515, 0x5349491a, 0x524d4d1f, 0x55515104, 0x54555501, 0x5759590e, 0x565d5d0b, 0x59616138, 0x5865653d, 0x5b696932,
   0x5a6d6d37, 0x5d71712c, 0x5c757529, 0x5f797926, 0x5e7d7d23, 0x618181e0, 0x608585e5, 0x638989ea, 0x628d8def, 0x659191f4,
   0x649595f1, 0x679999fe, 0x669d9dfb, 0x69a1a1c8, 0x68a5a5cd, 0x6ba9a9c2, 0x6aadadc7, 0x6db1b1dc, 0x6cb5b5d9, 0x6fb9b9d6,
   0x6ebdbdd3, 0x71c1c1b0, 0x70c5c5b5, 0x73c9c9ba, 0x72cdcdbf, 0x75d1d1a4, 0x74d5d5a1, 0x77d9d9ae, 0x76ddddab, 0x79e1e198,
   0x78e5e59d, 0x7be9e992, 0x7aeded97, 0x7df1f18c, 0x7cf5f589, 0x7ff9f986, 0x7efdfd83, 0x82020280, 0x83060685, 0x800a0a8a,
   0x810e0e8f, 0x86121294, 0x87161691, 0x841a1a9e, 0x851e1e9b, 0x8a2222a8, 0x8b2626ad, 0x882a2aa2, 0x892e2ea7, 0x8e3232bc,
   0x8f3636b9, 0x8c3a3ab6, 0x8d3e3eb3, 0x924242d0, 0x934646d5, 0x904a4ada, 0x914e4edf, 0x965252c4, 0x975656c1, 0x945a5ace,
   0x955e5ecb, 0x9a6262f8, 0x9b6666fd, 0x986a6af2, 0x996e6ef7, 0x9e7272ec, 0x9f7676e9, 0x9c7a7ae6, 0x9d7e7ee3, 0xa2828220,
   0xa3868625, 0xa08a8a2a, 0xa18e8e2f, 0xa6929234, 0xa7969631, 0xa49a9a3e, 0xa59e9e3b, 0xaaa2a208, 0xaba6a60d, 0xa8aaaa02,
   0xa9aeae07, 0xaeb2b21c, 0xafb6b619, 0xacbaba16, 0xadbebe13, 0xb2c2c270, 0xb3c6c675, 0xb0caca7a, 0xb1cece7f, 0xb6d2d264,
   0xb7d6d661, 0xb4dada6e, 0xb5dede6b, 0xbae2e258, 0xbbe6e65d, 0xb8eaea52, 0xb9eeee57, 0xbef2f24c, 0xbff6f649, 0xbcfafa46,
   0xbdfefe43, 0xc30303c0, 0xc20707c5, 0xc10b0bca, 0xc00f0fcf, 0xc71313d4, 0xc61717d1, 0xc51b1bde, 0xc41f1fdb, 0xcb2323e8,
   0xca2727ed, 0xc92b2be2, 0xc82f2fe7, 0xcf3333fc, 0xce3737f9, 0xcd3b3bf6, 0xcc3f3ff3, 0xd3434390, 0xd2474795, 0xd14b4b9a,
   0xd04f4f9f, 0xd7535384, 0xd6575781, 0xd55b5b8e, 0xd45f5f8b, 0xdb6363b8, 0xda6767bd, 0xd96b6bb2, 0xd86f6fb7, 0xdf7373ac,
   0xde7777a9, 0xdd7b7ba6, 0xdc7f7fa3, 0xe3838360, 0xe2878765, 0xe18b8b6a, 0xe08f8f6f, 0xe7939374, 0xe6979771, 0xe59b9b7e,
   0xe49f9f7b, 0xeba3a348, 0xeaa7a74d, 0xe9abab42, 0xe8afaf47, 0xefb3b35c, 0xeeb7b759, 0xedbbbb56, 0xecbfbf53, 0xf3c3c330,
   0xf2c7c735, 0xf1cbcb3a, 0xf0cfcf3f, 0xf7d3d324, 0xf6d7d721, 0xf5dbdb2e, 0xf4dfdf2b, 0xfbe3e318, 0xfae7e71d, 0xf9ebeb12,
   0xf8efef17, 0xfff3f30c, 0xfef7f709, 0xfdfbfb06, 0xfcffff03]

/-- `l` of the words whose byte 1 is 1, …, 255 and whose other bytes are 0. -/
def colTab1 : List Nat :=
  [0x4040501, 0x8080a02, 0xc0c0f03, 0x10101404, 0x14141105, 0x18181e06, 0x1c1c1b07, 0x20202808, 0x24242d09, 0x2828220a,
   0x2c2c270b, 0x30303c0c, 0x3434390d, 0x3838360e, 0x3c3c330f, 0x40405010, 0x44445511, 0x48485a12, 0x4c4c5f13, 0x50504414,
   0x54544115, 0x58584e16, 0x5c5c4b17, 0x60607818, 0x64647d19, 0x6868721a, 0x6c6c771b, 0x70706c1c, 0x7474691d, 0x7878661e,
   0x7c7c631f, 0x8080a020, 0x8484a521, 0x8888aa22, 0x8c8caf23, 0x9090b424, 0x9494b125, 0x9898be26, 0x9c9cbb27, 0xa0a08828,
   0xa4a48d29, 0xa8a8822a, 0xacac872b, 0xb0b09c2c, 0xb4b4992d, 0xb8b8962e, 0xbcbc932f, 0xc0c0f030, 0xc4c4f531, 0xc8c8fa32,
   0xccccff33, 0xd0d0e434, 0xd4d4e135, 0xd8d8ee36, 0xdcdceb37, 0xe0e0d838, 0xe4e4dd39, 0xe8e8d23a, 0xececd73b, 0xf0f0cc3c,
   0xf4f4c93d, 0xf8f8c63e, 0xfcfcc33f, 0x1014041, 0x5054540, 0x9094a43, 0xd0d4f42, 0x11115445, 0x15155144, 0x19195e47,
   0x1d1d5b46, 0x21216849, 0x25256d48, 0x2929624b, 0x2d2d674a, 0x31317c4d, 0x3535794c, 0x3939764f, 0x3d3d734e, 0x41411051,
   0x45451550, 0x49491a53, 0x4d4d1f52, 0x51510455, 0x55550154, 0x59590e57, 0x5d5d0b56, 0x61613859, 0x65653d58, 0x6969325b,
   0x6d6d375a, 0x71712c5d, 0x7575295c, 0x7979265f, 0x7d7d235e, 0x8181e061, 0x8585e560, 0x8989ea63, 0x8d8def62, 0x9191f465,
   0x9595f164, 0x9999fe67, 0x9d9dfb66, 0xa1a1c869, 0xa5a5cd68, 0xa9a9c26b, 0xadadc76a, 0xb1b1dc6d, 0xb5b5d96c, 0xb9b9d66f,
   0xbdbdd36e, 0xc1c1b071, 0xc5c5b570, 0xc9c9ba73, 0xcdcdbf72, 0xd1d1a475, 0xd5d5a174, 0xd9d9ae77, 0xddddab76, 0xe1e19879,
   0xe5e59d78, 0xe9e9927b, 0xeded977a, 0xf1f18c7d, 0xf5f5897c, 0xf9f9867f, 0xfdfd837e, 0x2028082, 0x6068583, 0xa0a8a80,
   0xe0e8f81, 0x12129486, 0x16169187, 0x1a1a9e84, 0x1e1e9b85, 0x2222a88a, 0x2626ad8b, 0x2a2aa288, 0x2e2ea789, 0x3232bc8e,
   0x3636b98f, 0x3a3ab68c, 0x3e3eb38d, 0x4242d092, 0x4646d593, 0x4a4ada90, 0x4e4edf91, 0x5252c496, 0x5656c197, 0x5a5ace94,
   0x5e5ecb95, 0x6262f89a, 0x6666fd9b, 0x6a6af298, 0x6e6ef799, 0x7272ec9e, 0x7676e99f, 0x7a7ae69c, 0x7e7ee39d, 0x828220a2,
   0x868625a3, 0x8a8a2aa0, 0x8e8e2fa1, 0x929234a6, 0x969631a7, 0x9a9a3ea4, 0x9e9e3ba5, 0xa2a208aa, 0xa6a60dab, 0xaaaa02a8,
   0xaeae07a9, 0xb2b21cae, 0xb6b619af, 0xbaba16ac, 0xbebe13ad, 0xc2c270b2, 0xc6c675b3, 0xcaca7ab0, 0xcece7fb1, 0xd2d264b6,
   0xd6d661b7, 0xdada6eb4, 0xdede6bb5, 0xe2e258ba, 0xe6e65dbb, 0xeaea52b8, 0xeeee57b9, 0xf2f24cbe, 0xf6f649bf, 0xfafa46bc,
   0xfefe43bd, 0x303c0c3, 0x707c5c2, 0xb0bcac1, 0xf0fcfc0, 0x1313d4c7, 0x1717d1c6, 0x1b1bdec5, 0x1f1fdbc4, 0x2323e8cb,
   0x2727edca, 0x2b2be2c9, 0x2f2fe7c8, 0x3333fccf, 0x3737f9ce, 0x3b3bf6cd, 0x3f3ff3cc, 0x434390d3, 0x474795d2, 0x4b4b9ad1,
   0x4f4f9fd0, 0x535384d7, 0x575781d6, 0x5b5b8ed5, 0x5f5f8bd4, 0x6363b8db, 0x6767bdda, 0x6b6bb2d9, 0x6f6fb7d8, 0x7373acdf,
   0x7777a9de, 0x7b7ba6dd, 0x7f7fa3dc, 0x838360e3, 0x878765e2, 0x8b8b6ae1, 0x8f8f6fe0, 0x939374e7, 0x979771e6, 0x9b9b7ee5,
   0x9f9f7be4, 0xa3a348eb, 0xa7a74dea, 0xabab42e9, 0xafaf47e8, 0xb3b35cef, 0xb7b759ee, 0xbbbb56ed, 0xbfbf53ec, 0xc3c330f3,
   0xc7c735f2, 0xcbcb3af1, 0xcfcf3ff0, 0xd3d324f7, 0xd7d721f6, 0xdbdb2ef5, 0xdfdf2bf4, 0xe3e318fb, 0xe7e71dfa, 0xebeb12f9,
   0xefef17f8, 0xf3f30cff, 0xf7f709fe, 0xfbfb06fd, 0xffff03fc]

/-- `l` of the words whose byte 2 is 1, …, 255 and whose other bytes are 0. -/
def colTab2 : List Nat :=
  [0x4050104, 0x80a0208, 0xc0f030c, 0x10140410, 0x14110514, 0x181e0618, 0x1c1b071c, 0x20280820, 0x242d0924, 0x28220a28,
   0x2c270b2c, 0x303c0c30, 0x34390d34, 0x38360e38, 0x3c330f3c, 0x40501040, 0x44551144, 0x485a1248, 0x4c5f134c, 0x50441450,
   0x54411554, 0x584e1658, 0x5c4b175c, 0x60781860, 0x647d1964, 0x68721a68, 0x6c771b6c, 0x706c1c70, 0x74691d74, 0x78661e78,
   0x7c631f7c, 0x80a02080, 0x84a52184, 0x88aa2288, 0x8caf238c, 0x90b42490, 0x94b12594, 0x98be2698, 0x9cbb279c, 0xa08828a0,
   0xa48d29a4, 0xa8822aa8, 0xac872bac, 0xb09c2cb0, 0xb4992db4, 0xb8962eb8, 0xbc932fbc, 0xc0f030c0, 0xc4f531c4, 0xc8fa32c8,
   0xccff33cc, 0xd0e434d0, 0xd4e135d4, 0xd8ee36d8, 0xdceb37dc, 0xe0d838e0, 0xe4dd39e4, 0xe8d23ae8, 0xecd73bec, 0xf0cc3cf0,
   0xf4c93df4, 0xf8c63ef8, 0xfcc33ffc, 0x1404101, 0x5454005, 0x94a4309, 0xd4f420d, 0x11544511, 0x15514415, 0x195e4719,
   0x1d5b461d, 0x21684921, 0x256d4825, 0x29624b29, 0x2d674a2d, 0x317c4d31, 0x35794c35, 0x39764f39, 0x3d734e3d, 0x41105141,
   0x45155045, 0x491a5349, 0x4d1f524d, 0x51045551, 0x55015455, 0x590e5759, 0x5d0b565d, 0x61385961, 0x653d5865, 0x69325b69,
   0x6d375a6d, 0x712c5d71, 0x75295c75, 0x79265f79, 0x7d235e7d, 0x81e06181, 0x85e56085, 0x89ea6389, 0x8def628d, 0x91f46591,
   0x95f16495, 0x99fe6799, 0x9dfb669d, 0xa1c869a1, 0xa5cd68a5, 0xa9c26ba9, 0xadc76aad, 0xb1dc6db1, 0xb5d96cb5, 0xb9d66fb9,
   0xbdd36ebd, 0xc1b071c1, 0xc5b570c5, 0xc9ba73c9, 0xcdbf72cd, 0xd1a475d1, 0xd5a174d5, 0xd9ae77d9, 0xddab76dd, 0xe19879e1,
   0xe59d78e5, 0xe9927be9, 0xed977aed, 0xf18c7df1, 0xf5897cf5, 0xf9867ff9, 0xfd837efd, 0x2808202, 0x6858306, 0xa8a800a,
   0xe8f810e, 0x12948612, 0x16918716, 0x1a9e841a, 0x1e9b851e, 0x22a88a22, 0x26ad8b26, 0x2aa2882a, 0x2ea7892e, 0x32bc8e32,
   0x36b98f36, 0x3ab68c3a, 0x3eb38d3e, 0x42d09242, 0x46d59346, 0x4ada904a, 0x4edf914e, 0x52c49652, 0x56c19756, 0x5ace945a,
   0x5ecb955e, 0x62f89a62, 0x66fd9b66, 0x6af2986a, 0x6ef7996e, 0x72ec9e72, 0x76e99f76, 0x7ae69c7a, 0x7ee39d7e, 0x8220a282,
   0x8625a386, 0x8a2aa08a, 0x8e2fa18e, 0x9234a692, 0x9631a796, 0x9a3ea49a, 0x9e3ba59e, 0xa208aaa2, 0xa60daba6, 0xaa02a8aa,
   0xae07a9ae, 0xb21caeb2, 0xb619afb6, 0xba16acba, 0xbe13adbe, 0xc270b2c2, 0xc675b3c6, 0xca7ab0ca, 0xce7fb1ce, 0xd264b6d2,
   0xd661b7d6, 0xda6eb4da, 0xde6bb5de, 0xe258bae2, 0xe65dbbe6, 0xea52b8ea, 0xee57b9ee, 0xf24cbef2, 0xf649bff6, 0xfa46bcfa,
   0xfe43bdfe, 0x3c0c303, 0x7c5c207, 0xbcac10b, 0xfcfc00f, 0x13d4c713, 0x17d1c617, 0x1bdec51b, 0x1fdbc41f, 0x23e8cb23,
   0x27edca27, 0x2be2c92b, 0x2fe7c82f, 0x33fccf33, 0x37f9ce37, 0x3bf6cd3b, 0x3ff3cc3f, 0x4390d343, 0x4795d247, 0x4b9ad14b,
   0x4f9fd04f, 0x5384d753, 0x5781d657, 0x5b8ed55b, 0x5f8bd45f, 0x63b8db63, 0x67bdda67, 0x6bb2d96b, 0x6fb7d86f, 0x73acdf73,
   0x77a9de77, 0x7ba6dd7b, 0x7fa3dc7f, 0x8360e383, 0x8765e287, 0x8b6ae18b, 0x8f6fe08f, 0x9374e793, 0x9771e697, 0x9b7ee59b,
   0x9f7be49f, 0xa348eba3, 0xa74deaa7, 0xab42e9ab, 0xaf47e8af, 0xb35cefb3, 0xb759eeb7, 0xbb56edbb, 0xbf53ecbf, 0xc330f3c3,
   0xc735f2c7, 0xcb3af1cb, 0xcf3ff0cf, 0xd324f7d3, 0xd721f6d7, 0xdb2ef5db, 0xdf2bf4df, 0xe318fbe3, 0xe71dfae7, 0xeb12f9eb,
   0xef17f8ef, 0xf30cfff3, 0xf709fef7, 0xfb06fdfb, 0xff03fcff]

/-- The whole tables against `l`. -/
theorem colTab_fin : (∀ a : Fin 255, (l (at8 (BitVec.ofNat 8 (a.val + 1)) 0)).toNat = colTab0.getD a.val 0) ∧
    (∀ a : Fin 255, (l (at8 (BitVec.ofNat 8 (a.val + 1)) 1)).toNat = colTab1.getD a.val 0) ∧
    (∀ a : Fin 255, (l (at8 (BitVec.ofNat 8 (a.val + 1)) 2)).toNat = colTab2.getD a.val 0) := by
  refine ⟨?_, ?_, ?_⟩ <;> decide +kernel

/-- At least three bytes of every sum of an entry of the one table and one of the other are not zero. -/
def pairCheck (s t : List Nat) : Bool := s.all fun u => t.all fun v => Nat.ble 3 (nzN (Nat.xor u v))

theorem pair01 : pairCheck colTab0 colTab1 = true := by decide +kernel
theorem pair02 : pairCheck colTab0 colTab2 = true := by decide +kernel

theorem single_fin : ∀ a : Fin 255, nz (l (at8 (BitVec.ofNat 8 (a.val + 1)) 0)) = 4 ∧
    nz ((l (l (l (at8 (BitVec.ofNat 8 (a.val + 1)) 0)))).rotateLeft 24) = 4 := by decide +kernel

theorem byte_fin {b : Byte} (h : b ≠ 0) : ∃ a : Fin 255, b = BitVec.ofNat 8 (a.val + 1) := by
  have h1 : b.toNat ≠ 0 := fun e => h (BitVec.eq_of_toNat_eq e)
  have h2 := b.isLt
  refine ⟨⟨b.toNat - 1, by omega⟩, ?_⟩
  apply BitVec.eq_of_toNat_eq
  rw [BitVec.toNat_ofNat]
  simp only
  omega

theorem pair_of_check {s t : List Nat} (h : pairCheck s t = true) {i j : Nat} (hi : i < s.length) (hj : j < t.length) :
    3 ≤ nzN (s.getD i 0 ^^^ t.getD j 0) := by
  unfold pairCheck at h
  rw [List.all_eq_true] at h
  have h1 := h (s.getD i 0) (by rw [List.getD_eq_getElem?_getD, List.getElem?_eq_getElem hi]; exact List.getElem_mem hi)
  rw [List.all_eq_true] at h1
  have h2 := h1 (t.getD j 0) (by rw [List.getD_eq_getElem?_getD, List.getElem?_eq_getElem hj]; exact List.getElem_mem hj)
  exact Nat.le_of_ble_eq_true h2

theorem colTab_length : colTab0.length = 255 ∧ colTab1.length = 255 ∧ colTab2.length = 255 := by decide +kernel

theorem two_bytes {a b : Byte} (ha : a ≠ 0) (hb : b ≠ 0) :
    3 ≤ nz (l (at8 a 0 ^^^ at8 b 1)) ∧ 3 ≤ nz (l (at8 a 0 ^^^ at8 b 2)) := by
  obtain ⟨i, rfl⟩ := byte_fin ha
  obtain ⟨j, rfl⟩ := byte_fin hb
  obtain ⟨c0, c1, c2⟩ := colTab_fin
  obtain ⟨l0, l1, l2⟩ := colTab_length
  rw [l_xor, l_xor, nz_nat, nz_nat, BitVec.toNat_xor, BitVec.toNat_xor, c0 i, c1 j, c2 j]
  exact ⟨pair_of_check pair01 (by rw [l0]; exact i.isLt) (by rw [l1]; exact j.isLt),
    pair_of_check pair02 (by rw [l0]; exact i.isLt) (by rw [l2]; exact j.isLt)⟩

theorem nzb_pos {b : Byte} (h : b ≠ 0) : nzb b = 1 := if_neg h

theorem nz_at8 (b : Byte) : nz (at8 b 0) = nzb b := by
  have h : ∀ k, 0 < k → byt (at8 b 0) k = 0 := fun k hk => by
    refine BitVec.eq_of_getLsbD_eq fun i hi => ?_
    rw [getLsbD_byt, getLsbD_at8]
    simp only [hi, decide_true, Bool.true_and]
    rw [BitVec.getLsbD_of_ge b _ (by omega)]
    simp
  have h0 : byt (at8 b 0) 0 = b := by
    refine BitVec.eq_of_getLsbD_eq fun i hi => ?_
    rw [getLsbD_byt, getLsbD_at8]
    simp [hi, show i < 32 by omega]
  unfold nz
  rw [h 3 (by omega), h 2 (by omega), h 1 (by omega), h0]
  simp [nzb]

/-- The claim for a word and for the rotated one are the same. -/
theorem branch_rot (x : Word) : nz (x.rotateLeft 8) + nz (l (x.rotateLeft 8)) = nz x + nz (l x) := by
  rw [l_rot, nz_rot, nz_rot]

theorem rot_ne {x : Word} (h : x ≠ 0) : x.rotateLeft 8 ≠ 0 := fun e => h <| by
  have e2 : nz x = 0 := by rw [← nz_rot, e]; decide
  exact nz_eq_zero e2

/-- One byte. -/
theorem branch_one {x : Word} (h0 : byt x 0 ≠ 0) (h1 : byt x 1 = 0) (h2 : byt x 2 = 0) (h3 : byt x 3 = 0) : 5 ≤ nz x + nz (l x) := by
  have e := word_split x
  rw [h1, h2, h3] at e
  simp only [at8_zero, z_xor] at e
  obtain ⟨a, ha⟩ := byte_fin h0
  have hs := (single_fin a).1
  rw [← ha, ← e] at hs
  have : nz x = 1 := by unfold nz; rw [h1, h2, h3, nzb_pos h0]; simp [nzb]
  omega

/-- Two bytes that are neighbours. -/
theorem branch_near {x : Word} (h0 : byt x 0 ≠ 0) (h1 : byt x 1 ≠ 0) (h2 : byt x 2 = 0) (h3 : byt x 3 = 0) : 5 ≤ nz x + nz (l x) := by
  have e := word_split x
  rw [h2, h3] at e
  simp only [at8_zero, z_xor] at e
  have hs := (two_bytes h0 h1).1
  rw [BitVec.xor_comm, ← e] at hs
  have : nz x = 2 := by unfold nz; rw [h2, h3, nzb_pos h0, nzb_pos h1]; simp [nzb]
  omega

/-- Two bytes that are not. -/
theorem branch_far {x : Word} (h0 : byt x 0 ≠ 0) (h1 : byt x 1 = 0) (h2 : byt x 2 ≠ 0) (h3 : byt x 3 = 0) : 5 ≤ nz x + nz (l x) := by
  have e := word_split x
  rw [h1, h3] at e
  simp only [at8_zero, z_xor, xor_z] at e
  have hs := (two_bytes h0 h2).2
  rw [BitVec.xor_comm, ← e] at hs
  have : nz x = 2 := by unfold nz; rw [h1, h3, nzb_pos h0, nzb_pos h2]; simp [nzb]
  omega

/-- An image with one byte comes from a word with four. -/
theorem back_one {y : Word} (h0 : byt y 0 ≠ 0) (h1 : byt y 1 = 0) (h2 : byt y 2 = 0) (h3 : byt y 3 = 0) :
    nz ((l (l (l y))).rotateLeft 24) = 4 := by
  have e := word_split y
  rw [h1, h2, h3] at e
  simp only [at8_zero, z_xor] at e
  obtain ⟨a, ha⟩ := byte_fin h0
  have hs := (single_fin a).2
  rwa [← ha, ← e] at hs

theorem image_two {x : Word} (hx : x ≠ 0) (h : nz x ≤ 3) : 2 ≤ nz (l x) := by
  have key : ∀ x : Word, nz x ≤ 3 → ¬ (byt (l x) 0 ≠ 0 ∧ byt (l x) 1 = 0 ∧ byt (l x) 2 = 0 ∧ byt (l x) 3 = 0) := by
    intro x h ⟨h0, h1, h2, h3⟩
    have := back_one h0 h1 h2 h3
    rw [l_back] at this
    omega
  have k0 := key x h
  have k1 := key (x.rotateLeft 8) (by rw [nz_rot]; exact h)
  have k2 := key ((x.rotateLeft 8).rotateLeft 8) (by rw [nz_rot, nz_rot]; exact h)
  have k3 := key (((x.rotateLeft 8).rotateLeft 8).rotateLeft 8) (by rw [nz_rot, nz_rot, nz_rot]; exact h)
  simp only [l_rot] at k1 k2 k3
  obtain ⟨a0, a1, a2, a3⟩ := byt_rot (l x)
  obtain ⟨b0, b1, b2, b3⟩ := byt_rot ((l x).rotateLeft 8)
  obtain ⟨c0, c1, c2, c3⟩ := byt_rot (((l x).rotateLeft 8).rotateLeft 8)
  rw [a0, a1, a2, a3] at k1
  rw [b0, b1, b2, b3, a0, a1, a2, a3] at k2
  rw [c0, c1, c2, c3, b0, b1, b2, b3, a0, a1, a2, a3] at k3
  have hz : nz (l x) ≠ 0 := fun e => hx (l_inj (by rw [nz_eq_zero e, l_zero]))
  unfold nz at hz ⊢
  by_cases e0 : byt (l x) 0 = 0 <;> by_cases e1 : byt (l x) 1 = 0 <;> by_cases e2 : byt (l x) 2 = 0 <;> by_cases e3 : byt (l x) 3 = 0 <;>
    simp_all [nzb]

/-- The branch number of `l` is five. -/
theorem branch (x : Word) (hx : x ≠ 0) : 5 ≤ nz x + nz (l x) := by
  rcases Nat.lt_or_ge 2 (nz x) with h | h
  · rcases Nat.lt_or_ge 3 (nz x) with h' | h'
    · have hz : nz (l x) ≠ 0 := fun e => hx (l_inj (by rw [nz_eq_zero e, l_zero]))
      omega
    · have := image_two hx h'
      omega
  · have r1 := branch_rot x
    have r2 := branch_rot (x.rotateLeft 8)
    have r3 := branch_rot ((x.rotateLeft 8).rotateLeft 8)
    obtain ⟨a0, a1, a2, a3⟩ := byt_rot x
    obtain ⟨b0, b1, b2, b3⟩ := byt_rot (x.rotateLeft 8)
    obtain ⟨c0, c1, c2, c3⟩ := byt_rot ((x.rotateLeft 8).rotateLeft 8)
    rw [a0] at b1; rw [a1] at b2; rw [a2] at b3; rw [a3] at b0
    rw [b0] at c1; rw [b1] at c2; rw [b2] at c3; rw [b3] at c0
    have p0 := @branch_one x
    have p1 := @branch_one (x.rotateLeft 8)
    have p2 := @branch_one ((x.rotateLeft 8).rotateLeft 8)
    have p3 := @branch_one (((x.rotateLeft 8).rotateLeft 8).rotateLeft 8)
    have q0 := @branch_near x
    have q1 := @branch_near (x.rotateLeft 8)
    have q2 := @branch_near ((x.rotateLeft 8).rotateLeft 8)
    have q3 := @branch_near (((x.rotateLeft 8).rotateLeft 8).rotateLeft 8)
    have s0 := @branch_far x
    have s1 := @branch_far (x.rotateLeft 8)
    rw [r1, a0, a1, a2, a3] at p1 q1 s1
    rw [r2, r1, b0, b1, b2, b3] at p2 q2
    rw [r3, r2, r1, c0, c1, c2, c3] at p3 q3
    have hn : nz x ≠ 0 := fun e => hx (nz_eq_zero e)
    have e3 := nzb_pos (b := byt x 3)
    have e2 := nzb_pos (b := byt x 2)
    have e1 := nzb_pos (b := byt x 1)
    have e0 := nzb_pos (b := byt x 0)
    have z : nzb 0 = 0 := rfl
    generalize nz x + nz (l x) = n at *
    unfold nz at h hn
    clear r1 r2 r3 a0 a1 a2 a3 b0 b1 b2 b3 c0 c1 c2 c3
    generalize byt x 3 = y3 at *
    generalize byt x 2 = y2 at *
    generalize byt x 1 = y1 at *
    generalize byt x 0 = y0 at *
    by_cases h3 : y3 = 0 <;> by_cases h2 : y2 = 0 <;> by_cases h1 : y1 = 0 <;> by_cases h0 : y0 = 0
    · subst h3 h2 h1 h0; omega
    · exact p0 h0 h1 h2 h3
    · exact p3 h1 h2 h3 h0
    · exact q0 h0 h1 h2 h3
    · exact p2 h2 h3 h0 h1
    · exact s0 h0 h1 h2 h3
    · exact q3 h1 h2 h3 h0
    · rw [e2 h2, e1 h1, e0 h0] at h; omega
    · exact p1 h3 h0 h1 h2
    · exact q1 h3 h0 h1 h2
    · exact s1 h3 h0 h1 h2
    · rw [e3 h3, e1 h1, e0 h0] at h; omega
    · exact q2 h2 h3 h0 h1
    · rw [e3 h3, e2 h2, e0 h0] at h; omega
    · rw [e3 h3, e2 h2, e1 h1] at h; omega
    · rw [e3 h3, e2 h2, e1 h1, e0 h0] at h; omega

end Verif.Sm4
