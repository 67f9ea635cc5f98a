import Verif.Sm3.Model
import Verif.Sm4.Model
import Verif.Util.Padding
/-!
# The data of the tests in /repo, run on the model

Tests of the model, not proofs of a property. The expected values in /repo/sm3/sm3_test.go and /repo/sm4/sm4_test.go come
from other programs. Those for SM2 are in `Sm2Vectors.lean`.
-/
namespace Verif.Props
open Verif

/-- `TestSum` and `TestSm3Digest_Sum`, second entry (/repo/sm3/sm3_test.go:12); the first is in `Sm3.lean`. -/
example : Sm3.sum (List.replicate 16 [0x61, 0x62, 0x63, 0x64]).flatten =
    .ok (toBE 32 0xdebe9ff92275b8a138604889c18e5a4d6fdb70e5387e5765293dcba39c0c5732) := by decide +kernel
example : (do
    let d ← Sm3.write Sm3.new (List.replicate 16 [0x61, 0x62, 0x63, 0x64]).flatten
    let (out, _) ← Sm3.sumMethod d []
    Res.ok out) = .ok (toBE 32 0xdebe9ff92275b8a138604889c18e5a4d6fdb70e5387e5765293dcba39c0c5732) := by decide +kernel

/-- Key and initialisation vector of /repo/sm4/sm4_test.go:18-31. -/
def repoKey : Bytes := toBE 16 0x7bea0aa5458ed1a37db1652efbc59505
def repoIv : Bytes := toBE 16 0x70b6e08d46ee822445600b25c471faba

/-- `TestSm4_CBC_Encrypt` (/repo/sm4/sm4_test.go:33-61), both entries, and back. -/
example : Verif.Padding.pkcs5Padding (toBE 8 0x0102030405060708) 16 = .ok (toBE 16 0x01020304050607080808080808080808) := by decide +kernel
example : Sm4.cbcEncrypt repoKey repoIv (toBE 16 0x01020304050607080808080808080808) =
    .ok (toBE 16 0xca55c5150bf7f46fc9892ace49789303) := by decide +kernel
example : Sm4.cbcEncrypt repoKey repoIv (toBE 32 0x0102030405060708010203040506070801020304050607080808080808080808) =
    .ok (toBE 32 0x95e1ec3b564a4671e7d6b110e9090b1bb7b59e8d74471e7086046be878004532) := by decide +kernel
example : Sm4.cbcDecrypt repoKey repoIv (toBE 32 0x95e1ec3b564a4671e7d6b110e9090b1bb7b59e8d74471e7086046be878004532) =
    .ok (toBE 32 0x0102030405060708010203040506070801020304050607080808080808080808) := by decide +kernel

end Verif.Props
