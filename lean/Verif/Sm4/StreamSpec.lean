import Verif.Sm4.Spec
/-!
# The stream modes of block ciphers (NIST SP 800-38A, GB/T 17964), for SM4
-/
namespace Verif.Spec.SM4
open Verif

/-- Counter mode, block `i` of the key stream: the cipher applied to the initial counter plus `i`, as a number of 128 bits. -/
def ctrBlock (key iv : Bytes) (i : Nat) : Bytes := encrypt key (toBE 16 ((beNat iv + i) % 2 ^ 128))

/-- Output feedback, block `i` of the key stream: the cipher applied `i + 1` times to the initial vector. -/
def ofbBlock (key iv : Bytes) : Nat → Bytes
  | 0 => encrypt key iv
  | i + 1 => encrypt key (ofbBlock key iv i)

/-- The message with a key stream that consists of blocks; the last block may be cut off. -/
def withStream (ks : Nat → Bytes) (m : Bytes) : Bytes := xor m (((List.range ((m.length + 15) / 16)).map ks).flatten)

/-- Cipher feedback with blocks of 128 bits, block `i` of the ciphertext with the initial vector before it:
`C_{i+1} = P_i ⊕ E(C_i)`. -/
def cfbBlock (key iv m : Bytes) : Nat → Bytes
  | 0 => iv
  | i + 1 => xor (blk m i) (encrypt key (cfbBlock key iv m i))

/-- Cipher feedback: the ciphertext of `m`. -/
def cfbEncrypt (key iv m : Bytes) : Bytes :=
  ((List.range ((m.length + 15) / 16)).map fun i => cfbBlock key iv m (i + 1)).flatten

/-- Cipher feedback: the message of the ciphertext `c`, `P_i = C_{i+1} ⊕ E(C_i)`. -/
def cfbDecrypt (key iv c : Bytes) : Bytes :=
  ((List.range ((c.length + 15) / 16)).map fun i => xor (blk c i) (encrypt key (if i = 0 then iv else blk c (i - 1)))).flatten

end Verif.Spec.SM4
