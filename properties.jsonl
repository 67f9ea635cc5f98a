{"id": "C01", "title": "SM3 digests conform to the standard", "statement": "Hashing a message with sm3.New()/Write.../Sum, or with sm3.Sum, yields exactly the digest that GM/T 0004-2012 defines for that message: pad with 0x80, zeros and the 64-bit big-endian bit length, then iterate the compression function over 64-byte blocks.", "quantifier": "every non-empty message of any length, and every way of cutting it into non-empty Write calls shorter than 2^31 bytes", "why_tests_cant": "there are infinitely many messages and lengths; padding and block-boundary errors show up only at particular lengths modulo 64 and 4", "anchors": ["sm3/sm3.go: New, Write, Sum, Reset, finish, processBlock, processWord, processLength, p0, p1, ff0, ff1, gg0, gg1, gT"]}
{"id": "C02", "title": "SM3 Write is insensitive to chunking", "statement": "Two sequences of Write calls whose concatenated data are equal leave the hash so that Sum returns the same digest.", "quantifier": "every pair of sequences of non-empty chunks with the same concatenation", "why_tests_cant": "the number of ways to split a message is exponential, and the partial-word buffer makes each split take a different path", "anchors": ["sm3/sm3.go: Write, processWord"]}
{"id": "C03", "title": "SM3 Reset forgets all history", "statement": "After Reset a digest object is indistinguishable from a freshly created one: every later sequence of Write/Sum/Reset calls returns the same results.", "quantifier": "every history of Write, Sum and Reset calls before the Reset and every continuation after it", "why_tests_cant": "quantifies over all call histories, including Resets in the middle of a word or block and after Sum", "anchors": ["sm3/sm3.go: Reset, New"]}
{"id": "C04", "title": "SM3 Sum leaves the running hash unchanged", "statement": "hash.Hash contract: Sum(b) returns b followed by the 32-byte digest of everything written so far and does not change the state, so a second Sum or a later Write continues from the same message.", "quantifier": "every digest state reachable by Write/Sum/Reset and every prefix b", "why_tests_cant": "needs every reachable state; the shipped tests call Sum once per Reset only", "anchors": ["sm3/sm3.go: Sum, checkSum, finish"]}
{"id": "C05", "title": "SM3 Write accepts every byte slice", "statement": "io.Writer contract: Write(p) consumes all of p, returns len(p), never panics, and writing an empty slice changes nothing.", "quantifier": "every slice p, of every length from zero up, in every digest state", "why_tests_cant": "the tests never write an empty slice or one beyond 2^31 bytes", "anchors": ["sm3/sm3.go: Write, processWord, Sum"]}
{"id": "C06", "title": "SM4 block decryption inverts encryption", "statement": "For a cipher created by NewCipher, Decrypt(Encrypt(block)) = block and Encrypt(Decrypt(block)) = block; each key gives a permutation of the 2^128 blocks.", "quantifier": "every 16-byte key and every 16-byte block", "why_tests_cant": "2^256 key/block pairs", "anchors": ["sm4/sm4.go: NewCipher, Encrypt, Decrypt, expandKey, processBlock, r, f0, f1, f2, f3"]}
{"id": "C07", "title": "SM4 block encryption conforms to the standard", "statement": "Encrypt produces the block GM/T 0002-2012 defines: the 32-round recurrence X[i+4] = X[i] xor T(X[i+1] xor X[i+2] xor X[i+3] xor rk[i]) with the standard key schedule, followed by the reverse transform; Decrypt is the same with the round keys reversed.", "quantifier": "every 16-byte key and block", "why_tests_cant": "2^256 inputs; the in-place four-round unrolling and the rotating five-word key buffer differ in form from the standard", "anchors": ["sm4/sm4.go: expandKey, encRound, decRound, tau, t, tAp, l, lAp, processBlock, sBox, cK, fK"]}
{"id": "C08", "title": "SM4 Encrypt/Decrypt are safe for overlapping buffers and touch 16 bytes", "statement": "With dst and src windows placed anywhere in one underlying array, overlapping in any way, Encrypt writes to the first 16 bytes of dst the encryption of what src held before the call, and changes no other byte.", "quantifier": "every array, every pair of window offsets in range, every key", "why_tests_cant": "all overlaps at all offsets for all contents", "anchors": ["sm4/sm4.go: Encrypt, Decrypt, processBlock"]}
{"id": "C09", "title": "SM4 rejects wrong sizes and never truncates", "statement": "NewCipher returns an error for every key length other than 16; ECB and CBC functions return an error, and no data, for every input whose length is not a multiple of 16; block Encrypt/Decrypt panic on short src or dst; CBC functions panic on an IV whose length is not 16; otherwise all of them succeed with an output as long as the input.", "quantifier": "every key, IV, input and buffer length", "why_tests_cant": "unbounded lengths in three parameters", "anchors": ["sm4/sm4.go: NewCipher, Encrypt, Decrypt, ECBEncrypt, ECBDecrypt, CBCEncrypt, CBCDecrypt"]}
{"id": "C10", "title": "SM4 ECB round-trip and blockwise locality", "statement": "ECBDecrypt(key, ECBEncrypt(key, p)) = p, and conversely; block i of the output depends only on the key and block i of the input.", "quantifier": "every key and every input of any number of blocks", "why_tests_cant": "unbounded message length", "anchors": ["sm4/sm4.go: ECBEncrypt, ECBDecrypt"]}
{"id": "C11", "title": "SM4 CBC conformance, round-trip and error propagation", "statement": "CBCEncrypt yields C[i] = E(P[i] xor C[i-1]) with C[-1] = IV; CBCDecrypt inverts it; on decryption, plaintext block i depends only on ciphertext blocks i-1 and i.", "quantifier": "every key, IV and input of any number of blocks", "why_tests_cant": "unbounded message length", "anchors": ["sm4/sm4.go: CBCEncrypt, CBCDecrypt"]}
{"id": "C12", "title": "PKCS5 padding round-trip", "statement": "PKCS5UnPadding(PKCS5Padding(src, n)) = src; the padded length is a multiple of n, and between 1 and n bytes are added.", "quantifier": "every src and every block size n accepted by the function", "why_tests_cant": "every length and contents, including data that already ends in padding-like bytes, and every block size", "anchors": ["util/padding.go: PKCS5Padding, PKCS5UnPadding"]}
{"id": "C13", "title": "Zero padding round-trip", "statement": "UnZeroPadding(ZeroPadding(src, n), k) = src when k is the number of bytes added, the padded length is a multiple of n and between 1 and n zero bytes are added.", "quantifier": "every src and every block size n >= 1", "why_tests_cant": "unbounded lengths and block sizes, including data ending in zeros", "anchors": ["util/padding.go: ZeroPadding, UnZeroPadding"]}
{"id": "C14", "title": "Pad-encrypt-decrypt-unpad is the identity", "statement": "Padding with PKCS5Padding(.,16), encrypting with ECB or CBC, decrypting and removing the padding returns the original plaintext; no step errors or panics.", "quantifier": "every plaintext of any length, every 16-byte key and IV", "why_tests_cant": "unbounded plaintexts times 2^256 key/IV pairs", "anchors": ["sm4/sm4.go: ECBEncrypt, ECBDecrypt, CBCEncrypt, CBCDecrypt", "util/padding.go: PKCS5Padding, PKCS5UnPadding"]}
{"id": "C15", "title": "PKCS5UnPadding rejects malformed padding", "statement": "PKCS5UnPadding on data whose trailing bytes are not a valid PKCS#5 padding reports this instead of returning wrong data or panicking.", "quantifier": "every byte string", "why_tests_cant": "adversarial inputs of any length and contents", "anchors": ["util/padding.go: PKCS5UnPadding"]}
{"id": "C16", "title": "Padding does not modify the caller's buffer", "statement": "PKCS5Padding and ZeroPadding return the padded copy without changing any byte the caller can reach through its own slices.", "quantifier": "every slice, with every amount of spare capacity", "why_tests_cant": "depends on slice capacity, which value-level tests do not see", "anchors": ["util/padding.go: PKCS5Padding, ZeroPadding"]}
{"id": "C17", "title": "Fixed-width integers and raw bytes round-trip", "statement": "A value written by AddUint8/16/24/32 or AddBytes is read back by the matching reader, leaving exactly the following bytes; AddUint24 keeps the low 24 bits.", "quantifier": "every value, every following byte string, every builder contents before", "why_tests_cant": "2^32 values times unbounded context", "anchors": ["cryptobyte/builder.go: AddUint8, AddUint16, AddUint24, AddUint32, AddBytes", "cryptobyte/string.go: ReadUint8, ReadUint16, ReadUint24, ReadUint32, ReadBytes"]}
{"id": "C18", "title": "Length-prefixed values round-trip", "statement": "What a continuation writes under AddUint8/16/24LengthPrefixed is what ReadUint8/16/24LengthPrefixed returns, followed by exactly the remaining bytes, whenever the content fits the prefix; otherwise Bytes returns an error.", "quantifier": "every content of any length (including nested builders) and every following byte string", "why_tests_cant": "unbounded contents; the limit cases are at 2^8, 2^16 and 2^24 bytes", "anchors": ["cryptobyte/builder.go: addLengthPrefixed, flushChild", "cryptobyte/string.go: readLengthPrefixed"]}
{"id": "C19", "title": "Parsing never panics, never over-reads and only advances", "statement": "Every cryptobyte.String reader, on every input, returns without panicking (for non-negative counts), consumes a prefix of the input, leaves a suffix, and anything it returns is contained in the consumed part.", "quantifier": "every byte string (also nil), every reader, every tag and count >= 0", "why_tests_cant": "adversarial inputs of any length", "anchors": ["cryptobyte/string.go: all methods of String", "cryptobyte/asn1.go: all Read*/Skip*/Peek* methods of String"]}
{"id": "C20", "title": "ReadASN1 accepts exactly minimal DER elements", "statement": "ReadAnyASN1 / ReadAnyASN1Element succeed on a string exactly when it starts with a low-form tag byte, a minimal DER definite length and that many content bytes (header plus content at most 2^32-1 bytes); then they return that tag, that content and the rest.", "quantifier": "every byte string", "why_tests_cant": "quantifies over all inputs, accepted and rejected; uniqueness of encodings cannot be tested", "anchors": ["cryptobyte/asn1.go: readASN1, ReadAnyASN1, ReadAnyASN1Element, ReadASN1, ReadASN1Element"]}
{"id": "C21", "title": "AddASN1 and ReadASN1 are inverse", "statement": "An element built with AddASN1(tag, f) is read back by ReadASN1 with the same tag and exactly the bytes f wrote, leaving the following bytes; and re-building what ReadAnyASN1 returned reproduces the consumed bytes.", "quantifier": "every tag other than high-form, every content below 2^32-6 bytes written by arbitrarily nested continuations, every following bytes", "why_tests_cant": "unbounded nesting and sizes; the length form changes at 128, 2^8, 2^16, 2^24", "anchors": ["cryptobyte/asn1.go: AddASN1, ReadASN1", "cryptobyte/builder.go: flushChild"]}
{"id": "C22", "title": "ASN.1 64-bit integers and enumerations round-trip canonically", "statement": "AddASN1Int64/AddASN1Uint64/AddASN1Enum are read back as the same value by ReadASN1Integer/ReadASN1Enum; narrower targets accept exactly the values they can hold; and any accepted encoding is the one the builder would produce.", "quantifier": "every int64 and uint64 value, every target width, every following bytes; every accepted input for canonicity", "why_tests_cant": "2^64 values and all byte strings", "anchors": ["cryptobyte/asn1.go: AddASN1Int64, AddASN1Uint64, AddASN1Enum, ReadASN1Integer, ReadASN1Enum, asn1Signed, asn1Unsigned, checkASN1Integer"]}
{"id": "C23", "title": "ASN.1 big integers round-trip", "statement": "AddASN1BigInt(n) is read back by ReadASN1Integer(*big.Int) as n, leaving the following bytes, for every integer n.", "quantifier": "every integer of any size and sign", "why_tests_cant": "unbounded integers; sign and leading-byte corner cases", "anchors": ["cryptobyte/asn1.go: AddASN1BigInt, readASN1BigInt, checkASN1Integer"]}
{"id": "C24", "title": "Object identifiers round-trip", "statement": "AddASN1ObjectIdentifier(oid) is read back by ReadASN1ObjectIdentifier as oid, for every OID the builder accepts; invalid OIDs make the builder report an error; each accepted encoding is the only one of its OID.", "quantifier": "every list of components; every accepted byte string", "why_tests_cant": "unbounded lists of unbounded components", "anchors": ["cryptobyte/asn1.go: AddASN1ObjectIdentifier, addBase128Int, isValidOID, readBase128Int, ReadASN1ObjectIdentifier"]}
{"id": "C25", "title": "Booleans round-trip", "statement": "AddASN1Boolean(v) is read back by ReadASN1Boolean, and by ReadOptionalASN1Boolean, as v; ReadOptionalASN1Boolean returns the default exactly when no BOOLEAN is next.", "quantifier": "both values in every context of following bytes", "why_tests_cant": "all following byte strings and all malformed inputs", "anchors": ["cryptobyte/asn1.go: AddASN1Boolean, ReadASN1Boolean, ReadOptionalASN1Boolean"]}
{"id": "C26", "title": "Bit strings and octet strings round-trip; malformed bit strings are rejected", "statement": "AddASN1BitString/AddASN1OctetString data are read back unchanged; ReadASN1BitString accepts exactly the encodings with at most 7 padding bits, all zero, none on an empty string, and reports the right bit length.", "quantifier": "every data string and every byte string offered to the parser", "why_tests_cant": "unbounded data; adversarial paddings", "anchors": ["cryptobyte/asn1.go: AddASN1BitString, AddASN1OctetString, ReadASN1BitString, ReadASN1BitStringAsBytes, ReadASN1Bytes"]}
{"id": "C27", "title": "Optional elements are read exactly when their tag is next", "statement": "ReadOptionalASN1, SkipOptionalASN1, ReadOptionalASN1Integer and ReadOptionalASN1OctetString consume nothing and yield the default when the next byte is not the tag; otherwise they behave as the mandatory reader, and fail when it fails.", "quantifier": "every input, tag and default", "why_tests_cant": "all byte strings", "anchors": ["cryptobyte/asn1.go: PeekASN1Tag, ReadOptionalASN1, SkipOptionalASN1, ReadOptionalASN1Integer, ReadOptionalASN1OctetString"]}
{"id": "C28", "title": "A growing Builder produces the concatenation of what was added", "statement": "For a Builder made by NewBuilder(buf) (or the zero value), any program of Add calls with arbitrarily nested continuations yields Bytes() = buf followed by the in-order encodings, where a length-prefixed item is its content's length followed by its content, and never panics.", "quantifier": "every finite program of builder calls, of any nesting depth and size", "why_tests_cant": "unbounded nesting; in-place length back-patching and content shifting interact with nesting", "anchors": ["cryptobyte/builder.go: NewBuilder, Bytes, add, addLengthPrefixed, callContinuation, flushChild", "cryptobyte/asn1.go: AddASN1"]}
{"id": "C29", "title": "Builder errors are sticky and always reported", "statement": "Once any error occurred (length overflow, unsupported tag, AddValue failure, BuildError panic in a continuation at any depth), Bytes returns an error and no bytes, whatever is called afterwards; a BuildError panic never escapes, any other panic does.", "quantifier": "every program of builder calls with an error or panic at any point and depth", "why_tests_cant": "all programs and all error points", "anchors": ["cryptobyte/builder.go: Bytes, add, addLengthPrefixed, callContinuation, flushChild, AddValue"]}
{"id": "C30", "title": "A fixed-size Builder equals a growing one whenever its output fits", "statement": "A Builder made by NewFixedBuilder(buf) never writes outside buf's capacity, returns the same bytes as a growing builder when they fit, and an error, without panicking, when they do not.", "quantifier": "every program of builder calls and every capacity", "why_tests_cant": "all programs times all capacities", "anchors": ["cryptobyte/builder.go: NewFixedBuilder, add, addLengthPrefixed, flushChild"]}
{"id": "C31", "title": "Writing to a builder whose child is pending is always caught", "statement": "Inside a continuation, any non-empty or empty write to an ancestor builder panics instead of corrupting the output.", "quantifier": "every program in which some continuation at any depth writes to an ancestor", "why_tests_cant": "all programs and positions", "anchors": ["cryptobyte/builder.go: add"]}
{"id": "C32", "title": "SM2 key bytes round-trip", "statement": "RawBytesToPrivateKey(priv.GetRawBytes()) and RawBytesToPublicKey(pub.GetRawBytes()) return keys with the same numbers; raw private keys are always 32 bytes, raw public keys 64, uncompressed ones 65 starting with 0x04; conversely every byte string of the right length is reproduced.", "quantifier": "every private scalar and coordinate below 2^256, including ones with leading zero bytes", "why_tests_cant": "2^512 keys; leading-zero cases have probability 2^-8 and less", "anchors": ["sm2/sm2.go: RawBytesToPublicKey, RawBytesToPrivateKey, GetUnCompressBytes, GetRawBytes, bigIntTo32Bytes"]}
{"id": "C33", "title": "SM2 key parsing accepts only the right length and valid points", "statement": "RawBytesToPublicKey/RawBytesToPrivateKey return an error for every other length, and accept only byte strings that denote a point of the curve, respectively a scalar in [1, n-2].", "quantifier": "every byte string", "why_tests_cant": "all byte strings", "anchors": ["sm2/sm2.go: RawBytesToPublicKey, RawBytesToPrivateKey"]}
{"id": "C34", "title": "Generated key pairs are consistent", "statement": "GenerateKey returns a private scalar in [0, n-1] and the public key that CalculatePubKey computes from it, whatever the random source yields.", "quantifier": "every sequence of random bytes", "why_tests_cant": "all random tapes, including those that need rejection", "anchors": ["sm2/sm2.go: GenerateKey, CalculatePubKey"]}
{"id": "C35", "title": "Every signature verifies", "statement": "If SignToRS(priv, id, m) returns (r, s) then VerifyByRS(pub, id, m, r, s) is true for pub = CalculatePubKey(priv); likewise Sign and Verify on DER bytes.", "quantifier": "every private key D >= 0, every user id (nil, empty or not), every message, every sequence of random nonces", "why_tests_cant": "all keys, messages and nonces, including nonces that are rejected and retried", "anchors": ["sm2/sm2.go: SignToRS, Sign, VerifyByRS, Verify, getZ, calculateE, nextK", "util/bigint.go"]}
{"id": "C36", "title": "Verification accepts exactly the standard's equation", "statement": "VerifyByRS returns true iff 1 <= r,s < n, t = (r+s) mod n is not 0, [s]G+[t]P is not the point at infinity and r = (e + x1) mod n, where e = SM3(Z || M) and Z is the standard's identity hash.", "quantifier": "every public key, user id shorter than 8192 bytes, message, r and s (any integers)", "why_tests_cant": "all integers r, s including negative and huge ones", "anchors": ["sm2/sm2.go: VerifyByRS, calculateE, getZ"]}
{"id": "C37", "title": "Signature components are in range", "statement": "Every (r, s) returned by SignToRS satisfies 1 <= r < n and 1 <= s < n, and r+k is never n for the nonce used.", "quantifier": "every key, id, message and random tape", "why_tests_cant": "rejection cases have probability about 2^-256 and are never hit by tests", "anchors": ["sm2/sm2.go: SignToRS"]}
{"id": "C38", "title": "Signature DER encoding round-trips", "statement": "UnmarshalSign(MarshalSign(r, s)) = (r, s).", "quantifier": "every pair of integers of any sign whose encodings together stay below 2^31 bytes (encoding/asn1 reads no longer ones)", "why_tests_cant": "unbounded integers", "anchors": ["sm2/sm2.go: MarshalSign, UnmarshalSign"]}
{"id": "C39", "title": "A signature has one accepted encoding", "statement": "Verify accepts a DER signature only if it is exactly the encoding MarshalSign produces (no trailing or extra bytes), so a valid signature cannot be altered into another accepted byte string for the same (r, s).", "quantifier": "every byte string offered as a signature", "why_tests_cant": "all byte strings", "anchors": ["sm2/sm2.go: UnmarshalSign, Verify"]}
{"id": "C40", "title": "User identity is bound unambiguously", "statement": "nil user id means exactly the default id '1234567812345678'; the bytes hashed into the identity digest determine the user id and the public key uniquely, and for ids shorter than 8192 bytes they are the standard's ENTL || ID || a || b || Gx || Gy || Px || Py.", "quantifier": "every pair of user ids and public keys with coordinates below 2^256", "why_tests_cant": "all ids of all lengths; a 16-bit length field is involved", "anchors": ["sm2/sm2.go: getZ, SignToRS, VerifyByRS"]}
{"id": "C41", "title": "Signing terminates for every accepted private key", "statement": "Sign returns (with probability one over the nonces) for every private key RawBytesToPrivateKey accepts.", "quantifier": "every 32-byte private key and every nonce sequence", "why_tests_cant": "singular keys are 1 in 2^256", "anchors": ["sm2/sm2.go: SignToRS, RawBytesToPrivateKey", "util/bigint.go: ModInverse"]}
{"id": "C42", "title": "Decryption inverts encryption", "statement": "If Encrypt(pub, m, t) returns c then Decrypt(priv, c, t) returns m, for both ciphertext layouts, and len(c) = 97 + len(m).", "quantifier": "every private key d >= 0 (multiples of n included), every message for which Encrypt returns, both layouts, every random tape", "why_tests_cant": "all keys, messages of all lengths and nonces", "anchors": ["sm2/sm2.go: Encrypt, Decrypt, kdf, notEncrypted, xor"]}
{"id": "C43", "title": "Encryption hides the message under the standard KDF", "statement": "The C2 part is the message xored with the first len(m) bytes of SM3(x2||y2||1)||SM3(x2||y2||2)||..., C3 = SM3(x2||m||y2), C1 = 04||x1||y1, and Encrypt never outputs a ciphertext whose key stream is all zero.", "quantifier": "every key, message and nonce", "why_tests_cant": "messages of all lengths, in particular across the 32-byte boundaries", "anchors": ["sm2/sm2.go: Encrypt, kdf"]}
{"id": "C44", "title": "Encrypt returns for every message", "statement": "Encrypt terminates (with probability one over the nonces) and without panic for every message, including the empty one.", "quantifier": "every message", "why_tests_cant": "the empty message is not tested; the loop's exit depends on data", "anchors": ["sm2/sm2.go: Encrypt, notEncrypted"]}
{"id": "C45", "title": "Decrypt returns data only if the integrity tag matches", "statement": "Decrypt returns m only if C3 = SM3(x2||m||y2) for the shared point computed from C1; changing only the C3 part of a decryptable ciphertext always gives an error.", "quantifier": "every ciphertext byte string below 2 GiB, every key d >= 0 and every layout value", "why_tests_cant": "all ciphertexts and all modifications", "anchors": ["sm2/sm2.go: Decrypt"]}
{"id": "C46", "title": "Decrypt reports malformed ciphertexts as errors", "statement": "Decrypt returns an error, without panicking, for every byte string that is not a well-formed ciphertext (too short, bad point, unknown layout).", "quantifier": "every byte string, every layout value", "why_tests_cant": "adversarial inputs", "anchors": ["sm2/sm2.go: Decrypt"]}
{"id": "C47", "title": "Ciphertext DER encoding round-trips", "statement": "UnmarshalCipher(MarshalCipher(c, t), t) = c for every ciphertext Encrypt can produce, hence decryption still works after the conversion.", "quantifier": "every C1 = 04||x||y with x, y < 2^256, C2 of any length below 2^31 - 128 (encoding/asn1 reads no longer elements), 32-byte C3, both layouts", "why_tests_cant": "coordinates with leading zeros or top bit set, C2 of all lengths", "anchors": ["sm2/sm2.go: MarshalCipher, UnmarshalCipher, bigIntTo32Bytes"]}
{"id": "C48", "title": "Key exchange: both sides agree", "statement": "If both parties run CalculateKeyWithConfirmation with matching inputs, the responder first, and the initiator given the responder's S1, then the initiator accepts, both Keys are equal, and ResponderConfirm(responder.S2, initiator.S2) is true.", "quantifier": "every pair of static and ephemeral private keys, every pair of ids, every key length the functions support", "why_tests_cant": "all key quadruples and ids", "anchors": ["sm2/keyexchange.go: CalculateKeyWithConfirmation, calculateU, reduce, kdfForExch, calculateInnerHash, s1, s2, ResponderConfirm"]}
{"id": "C49", "title": "Key exchange: the initiator accepts only the right tag", "statement": "With initiator = true, a nil confirmation tag gives an error, and a result is returned only if the tag equals SM3(0x02||uy||inner hash); ResponderConfirm is byte equality.", "quantifier": "every tag and all other inputs", "why_tests_cant": "all byte strings as tags", "anchors": ["sm2/keyexchange.go: CalculateKeyWithConfirmation, ResponderConfirm"]}
{"id": "C50", "title": "Key exchange delivers a key of the requested length", "statement": "The returned Key has ceil(keyBits/8) bytes and equals the standard KDF output, for every keyBits >= 0.", "quantifier": "every requested key length", "why_tests_cant": "unbounded lengths", "anchors": ["sm2/keyexchange.go: kdfForExch"]}
{"id": "C51", "title": "Domain names split into reverse labels", "statement": "The label splitter used for URI hosts, constraints and mailboxes accepts exactly the dot-separated lists of non-empty labels of printable ASCII without trailing dot, and returns the labels in reverse order; joining them gives back the name.", "quantifier": "every byte string", "why_tests_cant": "all strings", "anchors": ["sm2/cert/gmx509.go: domainToReverseLabels"]}
{"id": "C52", "title": "IP masks are accepted exactly when contiguous", "statement": "An IP constraint's mask is accepted iff its bits are some number of ones followed only by zeros.", "quantifier": "every byte string", "why_tests_cant": "2^128 IPv6 masks", "anchors": ["sm2/cert/gmx509.go: isValidIPMask"]}
{"id": "C53", "title": "Key usage bits survive encoding and parsing", "statement": "The KeyUsage of a template is what parsing the generated extension returns, and the encoding is the minimal DER bit string.", "quantifier": "every key usage value with bits 0..8", "why_tests_cant": "512 values through bit reversal and trimming; proved for the composed encoder/parser", "anchors": ["sm2/cert/gmx509.go: buildExtensions, reverseBitsInAByte, asn1BitLength, parseCertificate"]}
{"id": "C54", "title": "Extended key usages map one-to-one to OIDs", "statement": "Every known extended key usage maps to an OID and back to itself; unknown OIDs are kept verbatim; a list of known and unknown usages survives encode/parse.", "quantifier": "every list of usages and every OID", "why_tests_cant": "unbounded lists", "anchors": ["sm2/cert/gmx509.go: oidFromExtKeyUsage, extKeyUsageFromOID, buildExtensions, parseCertificate"]}
{"id": "C55", "title": "Subject alternative names round-trip", "statement": "Parsing the SAN extension built from DNS names, e-mail addresses, IP addresses and URIs returns the same lists in the same order.", "quantifier": "every list of names of any length", "why_tests_cant": "unbounded lists and strings", "anchors": ["sm2/cert/gmx509.go: marshalSANs, parseSANExtension, forEachSAN"]}
{"id": "C56", "title": "Name constraints round-trip", "statement": "Parsing the NameConstraints extension built from permitted/excluded DNS domains, IP ranges, e-mail and URI constraints returns the same lists, for constraints that are valid; invalid ones are rejected.", "quantifier": "every combination of constraint lists", "why_tests_cant": "unbounded lists", "anchors": ["sm2/cert/gmx509.go: buildExtensions, parseNameConstraintsExtension"]}
{"id": "C57", "title": "Mailbox parsing is total and exact", "statement": "The mailbox parser used for e-mail constraints never panics on any string, and accepts a plain 'local@domain' exactly when local is a dot-atom and the domain is valid; it returns exactly these parts.", "quantifier": "every byte string", "why_tests_cant": "all strings", "anchors": ["sm2/cert/gmx509.go: parseRFC2821Mailbox"]}
{"id": "C58", "title": "Explicit extensions override generated ones", "statement": "In a certificate built by CreateCertificateInfo the ExtraExtensions of the template appear verbatim at the end, no generated extension has the OID of an extra one, and generated OIDs are pairwise distinct; at most 10 are generated.", "quantifier": "every template", "why_tests_cant": "all combinations of template fields", "anchors": ["sm2/cert/gmx509.go: buildExtensions, oidInExtensions, CreateCertificateInfo"]}
{"id": "C59", "title": "A created CSR parses and its signature verifies", "statement": "ParseCertificateRequest accepts what CreateCertificateRequest returns, yields the same public key and subject bytes, and VerifyCSRSign is true for the same user id.", "quantifier": "every template subject, attribute list, key pair, user id and nonce", "why_tests_cant": "all keys, subjects and nonces", "anchors": ["sm2/cert/gmx509.go: CreateCertificateRequest, ParseCertificateRequest, VerifyDERCSRSign, VerifyCSRSign"]}
{"id": "C60", "title": "Certificate and CSR parsing reject trailing data and wrong algorithms", "statement": "ParseCertificate and ParseCertificateRequest return an error when bytes follow the outer structure, when the signature algorithm is not SM3-with-SM2, the key algorithm not EC, the curve not SM2 or the point not on the curve.", "quantifier": "every byte string", "why_tests_cant": "adversarial inputs", "anchors": ["sm2/cert/gmx509.go: ParseCertificate, ParseCertificateRequest, parsePublicKey"]}
{"id": "C61", "title": "Unknown critical extensions are reported", "statement": "After ParseCertificate, UnhandledCriticalExtensions lists exactly the critical extensions that were not understood, in order; Extensions lists all of them.", "quantifier": "every list of extensions", "why_tests_cant": "unbounded lists", "anchors": ["sm2/cert/gmx509.go: parseCertificate"]}
{"id": "C62", "title": "Signatures are accepted only under valid public keys", "statement": "If VerifyByRS/Verify returns true then the public key is a point of the curve other than infinity; in particular nobody without a private key can make signatures for a key RawBytesToPublicKey accepted.", "quantifier": "every public key RawBytesToPublicKey accepts, every id, message and signature", "why_tests_cant": "invalid keys are adversarial; the result depends on what the Jacobian formulas do outside the curve", "anchors": ["sm2/sm2.go: RawBytesToPublicKey, VerifyByRS, Verify"]}
{"id": "C63", "title": "Ciphertext conversion reports malformed input as errors", "statement": "MarshalCipher and UnmarshalCipher return a result or an error, without panicking, for every byte string and every layout value.", "quantifier": "every byte string, every layout value", "why_tests_cant": "adversarial inputs: short ciphertexts, oversized or negative integers, trailing data", "anchors": ["sm2/sm2.go: MarshalCipher, UnmarshalCipher, bigIntTo32Bytes"]}
{"id": "C64", "title": "Encrypt refuses invalid public keys", "statement": "If Encrypt returns a ciphertext then the public key is a point of the curve other than infinity; in particular a ciphertext for a key that RawBytesToPublicKey accepted cannot be read by everybody.", "quantifier": "every public key RawBytesToPublicKey accepts, every message, layout and random tape", "why_tests_cant": "invalid keys are adversarial; what is computed depends on the Jacobian formulas outside the curve", "anchors": ["sm2/sm2.go: RawBytesToPublicKey, Encrypt, Decrypt"]}
{"id": "C65", "title": "Key exchange: confirmation values are the standard's", "statement": "S1 and S2 equal the standard's SM3(0x02||yU||SM3(xU||ZA||ZB||x1||y1||x2||y2)) and SM3(0x03||...) with all coordinates as 32 bytes, so that another implementation accepts them.", "quantifier": "every pair of valid static and ephemeral keys, ids and key length", "why_tests_cant": "a coordinate begins with a zero byte in about one exchange of 43", "anchors": ["sm2/keyexchange.go: calculateInnerHash, s1, s2"]}
{"id": "C66", "title": "Key exchange refuses invalid public keys", "statement": "If CalculateKeyWithConfirmation returns a result then both public keys of the other side are points of the curve (GB/T 32918.3, steps A6 and B5).", "quantifier": "every pair of public keys of the other side", "why_tests_cant": "invalid keys are adversarial", "anchors": ["sm2/keyexchange.go: CalculateKeyWithConfirmation, calculateU"]}
{"id": "C67", "title": "Key exchange derives no key from the point at infinity", "statement": "If CalculateKeyWithConfirmation returns a result then the shared point is not the point at infinity.", "quantifier": "every private keys d, r >= 0, every points (infinity included) as keys of the other side, both roles, every tag, ids, key length", "why_tests_cant": "no test hits the point at infinity; there is no explicit check in the code", "anchors": ["sm2/keyexchange.go: CalculateKeyWithConfirmation, calculateU, calculateInnerHash"]}
{"id": "C68", "title": "Certificate and request parsing always returns", "statement": "ParseCertificate, ParseCertificateRequest and VerifyDERCSRSign return a result or an error; they never panic and never run forever.", "quantifier": "every byte string, every behaviour of url.Parse and net.ParseIP, every user id of less than 8192 bytes (VerifyDERCSRSign)", "why_tests_cant": "the inputs are arbitrary bytes from the network, with nested lengths, high tags and truncated parts; tests only parse well-formed files", "anchors": ["sm2/cert/gmx509.go: ParseCertificate, ParseCertificateRequest, VerifyDERCSRSign"]}
{"id": "C69", "title": "VerifyDERCSRSign accepts exactly validly signed requests", "statement": "VerifyDERCSRSign returns true exactly when the bytes are a request and its signature is a DER pair (r,s) that the SM2 verification equation accepts for the CertificationRequestInfo bytes contained in it, under the key contained in it.", "quantifier": "every byte string, every user id of less than 8192 bytes", "why_tests_cant": "a test checks a few signatures; that no altered request is accepted without a valid signature on the altered bytes is a statement about all byte strings", "anchors": ["sm2/cert/gmx509.go: VerifyDERCSRSign, VerifyCSRSign, ParseCertificateRequest", "sm2/sm2.go: Verify"]}
{"id": "C70", "title": "Signature algorithm inside and outside the signed part agree", "statement": "If ParseCertificate accepts a certificate then the signature field of the TBSCertificate names the same algorithm as the outer signatureAlgorithm (RFC 5280 4.1.1.2).", "quantifier": "every byte string", "why_tests_cant": "certificates made by ordinary tools agree; only a hand-made one does not", "anchors": ["sm2/cert/gmx509.go: parseCertificate"]}
{"id": "C71", "title": "Accepted certificates and requests are DER", "statement": "ParseCertificate and ParseCertificateRequest accept only DER: no octets after the last component of a SEQUENCE, object identifiers in the fewest octets, lengths of explicit tags that match their contents.", "quantifier": "every byte string", "why_tests_cant": "ordinary tools produce DER; deviating encodings have to be constructed one by one", "anchors": ["sm2/cert/gmx509.go: ParseCertificate, ParseCertificateRequest", "encoding/asn1: parseField"]}
{"id": "C72", "title": "Names in a SAN extension are of the context-specific class, primitive and ASCII", "statement": "parseSANExtension takes as DNS name, mail address, URI or IP address only elements of the context-specific class in primitive form, and DNS names, mail addresses and URIs only if they are IA5 strings (RFC 5280 4.2.1.6).", "quantifier": "every byte string", "why_tests_cant": "ordinary tools produce the right class; the deviating ones have to be constructed", "anchors": ["sm2/cert/gmx509.go: forEachSAN, parseSANExtension, marshalSANs"]}
{"id": "C73", "title": "Minimum and maximum of a name constraint are not ignored", "statement": "A GeneralSubtree with a minimum other than 0 or a maximum is processed or rejected, never taken as if these fields were absent (RFC 5280 4.2.1.10).", "quantifier": "every NameConstraints extension", "why_tests_cant": "no ordinary tool produces these fields", "anchors": ["sm2/cert/gmx509.go: parseNameConstraintsExtension"]}
{"id": "C74", "title": "Creating a certificate returns", "statement": "CreateCertificateInfo and CreateCertificate return a result or an error, for every template, parent and request; they never panic.", "quantifier": "every template, parent certificate, request and signature", "why_tests_cant": "all combinations of template fields and arbitrary raw bytes in them", "anchors": ["sm2/cert/gmx509.go: CreateCertificateInfo, buildExtensions, CreateCertificate"]}
{"id": "C75", "title": "Validity times are read and written as the same instant", "statement": "A UTCTime or GeneralizedTime is accepted exactly if it is well formed and a real calendar date, and is read as what it denotes (two-digit years are 1950 to 2049); the validity of a created certificate is written in UTC, as UTCTime for 1950 to 2049 and GeneralizedTime otherwise, and denotes the same instant as the template's time in its own zone.", "quantifier": "every byte string; every valid time of the years 1 to 9998 in every zone", "why_tests_cant": "leap years, century boundaries and zone offsets crossing days, months and years", "anchors": ["sm2/cert/gmx509.go: CreateCertificateInfo (NotBefore.UTC()), parseCertificate", "encoding/asn1: parseUTCTime, parseGeneralizedTime, appendUTCTime, appendGeneralizedTime"]}
{"id": "C76", "title": "Only RFC 5280 times are accepted", "statement": "ParseCertificate accepts a validity time only in the form RFC 5280 4.1.2.5 prescribes: seconds present, Z as zone, UTCTime exactly for the years 1950 to 2049.", "quantifier": "every certificate", "why_tests_cant": "ordinary tools produce conforming times only", "anchors": ["sm2/cert/gmx509.go: parseCertificate, validity"]}
{"id": "C77", "title": "No extension field is overlooked", "statement": "If a certificate is accepted, an extension field [3] following the key in the signed part is read as extensions.", "quantifier": "every certificate", "why_tests_cant": "the deviating layouts have to be constructed", "anchors": ["sm2/cert/gmx509.go: tbsCertificate, ParseCertificate"]}
{"id": "C78", "title": "Creating a request leaves the template alone", "statement": "CreateCertificateRequest does not change the template the caller passed.", "quantifier": "every template", "why_tests_cant": "the change only happens when the template already carries an extensionRequest attribute and other extensions are generated; the caller's data is altered through a shared slice", "anchors": ["sm2/cert/gmx509.go:136-144"]}
{"id": "C79", "title": "Criticality of requested extensions is kept", "statement": "An extension of the template marked critical is marked critical in the created request, and a parsed request reports the criticality that was requested.", "quantifier": "every template and request", "why_tests_cant": "the flag is dropped silently on both sides, so a round trip through the package looks consistent", "anchors": ["sm2/cert/gmx509.go: CreateCertificateRequest, parseCSRExtensions"]}
{"id": "C80", "title": "Names are read back field by field", "statement": "Reading a distinguished name puts into each field of pkix.Name the string values of its attribute type in order (for the common name and serial number the last one); reading back what a name is written as gives the same fields; the subject of a created request is the template's subject.", "quantifier": "every RDN sequence, every name, every request template", "why_tests_cant": "all combinations of multi-valued fields and overriding extra names", "anchors": ["sm2/cert/gmx509.go: parseCertificateRequest, parseCertificate, subjectBytes", "crypto/x509/pkix: FillFromRDNSequence, ToRDNSequence"]}
{"id": "C81", "title": "Sets in names are in DER order", "statement": "The elements of every SET OF in a written name are in ascending order of their encodings (X.690 11.6).", "quantifier": "every name", "why_tests_cant": "only visible for multi-valued fields in a particular order", "anchors": ["sm2/cert/gmx509.go: subjectBytes (asn1.Marshal of the RDN sequence)"]}
{"id": "C82", "title": "Names are written as directory strings", "statement": "A name is written as a sequence of sets of attributes, one set per field with values in fixed order; a string is a PrintableString if it only has such characters, otherwise a UTF8String; a string that is not UTF-8 gives an error.", "quantifier": "every name without extra names", "why_tests_cant": "all strings, in particular malformed UTF-8 (overlong forms, surrogates, truncation)", "anchors": ["sm2/cert/gmx509.go: subjectBytes", "encoding/asn1: marshal of strings"]}
{"id": "C83", "title": "What is read as a name", "statement": "A byte string is accepted as a name exactly if it is a sequence of sets of attributes, and each attribute is read as what it stands for: the listed string types with their alphabets, integers, bit strings, object identifiers, times and octet strings; other elements give no value.", "quantifier": "every byte string", "why_tests_cant": "adversarial encodings", "anchors": ["sm2/cert/gmx509.go: parseCertificateRequest, parseCertificate (subject and issuer)", "encoding/asn1: parseField for interface{}"]}
{"id": "C84", "title": "An issued certificate is read as what the template asks for", "statement": "A certificate made by CreateCertificateInfo and IssueCertificateBySoftCAKey is accepted by ParseCertificate, with version 3, the serial number, names, instants, key and extensions asked for and every extension field of the template; its signature verifies with the CA's key.", "quantifier": "every parsed request, CA key, user id, nonces, and every template whose parts can be read one by one", "why_tests_cant": "whole pipeline over all templates, zones, keys and nonces", "anchors": ["sm2/cert/gmx509.go: CreateCertificateInfo, buildExtensions, IssueCertificateBySoftCAKey, CreateCertificate, ParseCertificate, parseCertificate"]}
{"id": "C85", "title": "Every issued certificate can be read", "statement": "Whatever template is given, if a certificate is issued then ParseCertificate accepts it.", "quantifier": "every template, request, key", "why_tests_cant": "depends on odd templates only", "anchors": ["sm2/cert/gmx509.go: CreateCertificateInfo, ParseCertificate"]}
{"id": "C86", "title": "A certificate for a filled template names the requester", "statement": "After FillCertificateTemplateByCSR the issued certificate has the key, the subject and the alternative names of the request.", "quantifier": "every parsed request and template", "why_tests_cant": "subjects with attributes outside pkix.Name's fields, templates with RawSubject", "anchors": ["sm2/cert/gmx509.go: FillCertificateTemplateByCSR, CreateCertificateInfo"]}
{"id": "C87", "title": "Extensions asked for reach the certificate", "statement": "After FillCertificateTemplateByCSR the extensions of the request are in the issued certificate.", "quantifier": "every parsed request and template", "why_tests_cant": "a test with SANs only passes", "anchors": ["sm2/cert/gmx509.go: FillCertificateTemplateByCSR, buildExtensions"]}
{"id": "C88", "title": "Proof of possession", "statement": "A certificate is made only for a request whose signature verifies with its key.", "quantifier": "every request", "why_tests_cant": "absence of a check", "anchors": ["sm2/cert/gmx509.go: CreateCertificateInfo"]}
{"id": "C89", "title": "Uniform key generation in the standard's range", "statement": "From a uniformly random source GenerateKey draws every private key from 1 to n-2 with equal probability and no other.", "quantifier": "every scalar below the order, every random read", "why_tests_cant": "2^256 reads; the ends of the range have probability 2^-256", "anchors": ["sm2/sm2.go: GenerateKey"]}
{"id": "C90", "title": "Uniform nonces", "statement": "The nonce of Sign and Encrypt is the first random read that is a number from 1 to n-1, so that a uniformly random source gives every nonce with equal probability and no read is used twice.", "quantifier": "every sequence of random reads, including failing ones", "why_tests_cant": "bias of nonces is not visible in any number of runs one can make", "anchors": ["sm2/sm2.go: nextK"]}
{"id": "C91", "title": "GeneralizedTime of cryptobyte", "statement": "AddASN1GeneralizedTime writes the DER encoding of the time's instant or reports an error, and ReadASN1GeneralizedTime accepts exactly the DER encodings and returns the instant.", "quantifier": "every calendar time in every zone; every byte string", "why_tests_cant": "zones with unusual offsets; all malformed strings", "anchors": ["cryptobyte/asn1.go: AddASN1GeneralizedTime, ReadASN1GeneralizedTime"]}
{"id": "C92", "title": "Issued certificates follow the RFC 5280 profile", "statement": "A certificate made by CreateCertificateInfo and IssueCertificateBySoftCAKey and accepted by ParseCertificate has version 3, a positive serial number of at most 20 octets, a non-empty issuer, a validity period that is not empty, no extension twice, a critical subject alternative name if the subject is empty, and critical basic constraints if it is a CA.", "quantifier": "every template, parent, request, CA key and nonces", "why_tests_cant": "unbounded templates; the checks that are missing are not visible in sample certificates", "anchors": ["sm2/cert/gmx509.go: CreateCertificateInfo, buildExtensions, ParseCertificate"]}
{"id": "C93", "title": "Readers look only at what they consume", "statement": "When a cryptobyte read succeeds, it returns the same result and consumes the same bytes whatever bytes follow; an optional element that is present is read the same whatever follows, and one that is absent stays absent unless the next byte is its tag.", "quantifier": "every reader, every input, every continuation", "why_tests_cant": "all continuations", "anchors": ["cryptobyte/string.go", "cryptobyte/asn1.go: Read*, Skip*"]}
{"id": "C94", "title": "Failing reads consume nothing", "statement": "A cryptobyte read that reports failure leaves the String as it was, so that the caller can try another alternative.", "quantifier": "every reader and every input", "why_tests_cant": "all malformed inputs", "anchors": ["cryptobyte/string.go: readLengthPrefixed", "cryptobyte/asn1.go: ReadASN1, ReadASN1Element"]}
{"id": "C95", "title": "A signature is bound to its message", "statement": "If Verify accepts a signature for two messages or ids under one valid key, the values SM3(Z||M) of both are congruent modulo n; and for a given key, message and r only a few values s are accepted.", "quantifier": "every valid public key, ids, messages, signatures", "why_tests_cant": "a second message or s is never found by trying", "anchors": ["sm2/sm2.go: Verify, VerifyByRS, UnmarshalSign"]}
{"id": "C96", "title": "The DER form of ciphertexts is the standard's", "statement": "MarshalCipher returns the SM2Cipher of GM/T 0009 (SEQUENCE of x, y, hash, encrypted message) for every ciphertext of both layouts, and the DER form can be read for either layout.", "quantifier": "every ciphertext, both layouts", "why_tests_cant": "all lengths and coordinates; round trips in one layout do not show the order", "anchors": ["sm2/sm2.go: MarshalCipher, UnmarshalCipher"]}
{"id": "C97", "title": "A message has one ciphertext per ephemeral point", "statement": "Two ciphertexts beginning with the same C1 that Decrypt accepts with the same plaintext are equal.", "quantifier": "every private key, every pair of ciphertexts, both layouts", "why_tests_cant": "all pairs of inputs", "anchors": ["sm2/sm2.go: Decrypt"]}
{"id": "C98", "title": "Confirmation binds the key exchange", "statement": "If an initiator accepts the S1 of a responder, both have the same ids, public keys, ephemeral keys and shared point in mind, or a collision of SM3 has been found; the two confirmation values of a run differ or are a collision.", "quantifier": "all keys, ids and beliefs of both sides", "why_tests_cant": "statement about all pairs of runs", "anchors": ["sm2/keyexchange.go: CalculateKeyWithConfirmation, calculateInnerHash, s1, s2, ResponderConfirm"]}
{"id": "C99", "title": "HMAC over sm3.New", "statement": "hmac.New(sm3.New, key) of the Go library computes HMAC-SM3 (RFC 2104 with B = 64) for every key and message; Sum can be repeated and Reset restores the initial state.", "quantifier": "every key, message, splitting into writes", "why_tests_cant": "all keys and splittings", "anchors": ["sm3/sm3.go: New, BlockSize, Size, Write, Sum, Reset"]}
{"id": "C100", "title": "The signed part determines the content", "statement": "Two accepted certificates (or requests) with the same signed part differ in nothing but Raw and Signature, and Raw is determined by signed part and signature.", "quantifier": "every pair of byte strings", "why_tests_cant": "statement about all pairs of inputs", "anchors": ["sm2/cert/gmx509.go: parseCertificate, parseCertificateRequest, VerifyDERCSRSign"]}
{"id": "C101", "title": "Object identifiers are written as they are", "statement": "An object identifier given in a template is written so that it is read as the same identifier, or refused.", "quantifier": "every list of ints", "why_tests_cant": "negative and huge components do not occur in samples", "anchors": ["encoding/asn1: makeObjectIdentifier", "sm2/cert/gmx509.go: buildExtensions, oidInExtensions"]}
{"id": "C102", "title": "SM4 keys have different round keys", "statement": "The round keys of any four consecutive rounds determine the key, and every four words occur.", "quantifier": "every key, every position", "why_tests_cant": "2^128 keys", "anchors": ["sm4/sm4.go: expandKey, NewCipher"]}
{"id": "C103", "title": "SM3 collisions are compression collisions", "statement": "If two different messages have the same digest, the compression function collides at two steps of the two computations.", "quantifier": "every pair of messages", "why_tests_cant": "no collision is known to test with", "anchors": ["sm3/sm3.go: Sum, Write, finish"]}
{"id": "C104", "title": "A public key has one private key", "statement": "Every point of the curve is the public key of exactly one scalar from 1 to n-1, and no two accepted private keys have the same public key.", "quantifier": "every key", "why_tests_cant": "2^256 keys", "anchors": ["sm2/sm2.go: CalculatePubKey, RawBytesToPrivateKey, GenerateKey"]}
{"id": "C105", "title": "Accepted signatures are those Sign can return", "statement": "Under the public key of a private key, verification accepts a pair exactly if signing with this key returns it for some sequence of random reads; on bytes, exactly if it is read as such a pair.", "quantifier": "every private key (not -1 modulo n), id, message and pair", "why_tests_cant": "the accepted pairs cannot be enumerated", "anchors": ["sm2/sm2.go: SignToRS, VerifyByRS, Sign, Verify"]}
{"id": "C106", "title": "Decrypt takes only what Encrypt can make", "statement": "Decryption returns a message exactly for the ciphertexts that encryption of this message can return; ciphertexts with a zero key stream are refused (GB/T 32918.4, 7.1 B4).", "quantifier": "every private key, ciphertext, message and layout", "why_tests_cant": "2^256 points, all messages", "anchors": ["sm2/sm2.go: Encrypt, Decrypt"]}
{"id": "C107", "title": "Repeated random bytes do not give anything away", "statement": "Two signatures made with the same random bytes do not disclose the private key, and two ciphertexts made with the same random bytes do not disclose relations between their messages.", "quantifier": "every key, message and random input", "why_tests_cant": "a relation between any two runs", "anchors": ["sm2/sm2.go: nextK, SignToRS, Encrypt"]}
{"id": "C108", "title": "URIs come through reading and issuing unchanged", "statement": "A URI that is read from the SAN extension of a request or certificate, and written again into a certificate, is read from it as the same URI, with the same host.", "quantifier": "every SAN extension, request, template, with net/url as of Go 1.12 (before and after the check of ports)", "why_tests_cant": "all texts; the failing ones need an escaped slash next to a character that must be escaped", "anchors": ["sm2/cert/gmx509.go: parseSANExtension, marshalSANs, fillCertificateTemplateByCSR", "net/url: Parse, String"]}
{"id": "C109", "title": "URIs in certificates are absolute and ASCII", "statement": "A URI name is accepted only if it is an absolute URI with a scheme, as an IA5String (RFC 5280, 4.2.1.6); plain absolute URIs are accepted and keep their parts.", "quantifier": "every URI name", "why_tests_cant": "all texts", "anchors": ["sm2/cert/gmx509.go: parseSANExtension:500-515"]}
{"id": "C110", "title": "URI name constraints are host names, not addresses", "statement": "A URI name constraint is a fully qualified domain name, optionally with a leading period, and never an IP address (RFC 5280, 4.2.1.10).", "quantifier": "every name constraints extension, with net.ParseIP as of Go 1.12", "why_tests_cant": "all texts; IPv6 has many spellings of an address", "anchors": ["sm2/cert/gmx509.go: parseNameConstraintsExtension:1415-1440", "net: ParseIP"]}
{"id": "C111", "title": "Two signatures of a message with the same r", "statement": "For a message and an r, at most four values s are accepted under a public key; two different ones reveal the private key, unless an x coordinate lies below p - n.", "quantifier": "every private key below n except n-1, user identifier, message and pair of accepted signatures", "why_tests_cant": "all signatures; such pairs are never met by chance", "anchors": ["sm2/sm2.go: VerifyByRS:543-576", "sm2/sm2.go: SignToRS:488-532"]}
{"id": "C112", "title": "A digest says nothing about digests of longer messages", "statement": "From the SM3 digest of secret data and its length nobody computes the digest of a message that begins with the secret data.", "quantifier": "every secret and suffix", "why_tests_cant": "a test would have to try all ways of computing", "anchors": ["sm3/sm3.go: Sum:275-280", "sm3/sm3.go: checkSum:137-160"]}
{"id": "C113", "title": "The SM4 modes do not modify their arguments and return memory of their own", "statement": "ECBEncrypt, ECBDecrypt, CBCEncrypt and CBCDecrypt return a slice of a new array with the output of the mode; every slice of the caller reads as before, even where key, initialisation vector and data overlap.", "quantifier": "every memory, key, initialisation vector and data slice (lengths, capacities and overlaps)", "why_tests_cant": "all overlaps and capacities", "anchors": ["sm4/sm4.go: ECBEncrypt, ECBDecrypt, CBCEncrypt, CBCDecrypt:224-296", "crypto/cipher: cbc.go"]}
{"id": "C114", "title": "SM2 changes no number of its caller", "statement": "Key generation, signing, verification, encryption, decryption and key exchange write to no big.Int that existed before the call, neither of the caller nor of a key nor of the package; the numbers they return are new; and their results are those of the model that treats pointers as numbers, also when pointers are shared.", "quantifier": "every memory in which the package is initialised, every key with the package's curve, every message, identifier, tape of random reads and choice of pointers, equal ones included", "why_tests_cant": "a write to a shared number shows only in later calls and only for some aliasings; tests use separate numbers", "anchors": ["sm2/sm2.go: GenerateKey:99-112, RawBytesToPublicKey:114-123, RawBytesToPrivateKey:125-133, CalculatePubKey:182-187, nextK:189-202, Encrypt:262-306, Decrypt:308-346, SignToRS:488-531, VerifyByRS:543-575, Verify:578-585", "sm2/keyexchange.go: reduce:19-26, calculateU:28-43, CalculateKeyWithConfirmation:105-144", "util/bigint.go: 5-51"]}
{"id": "C115", "title": "Keys do not share the numbers of the curve", "statement": "What a caller does to the curve that GetSm2P256V1 or a key gave it has no effect on other keys.", "quantifier": "every initialised memory, every key, message and signature", "why_tests_cant": "needs a second user of the package in the same process; the claim covers every key made before and after", "anchors": ["sm2/sm2.go: sm2P256V1:40-46, GetSm2P256V1:95-97, VerifyByRS:543-575"]}
{"id": "C116", "title": "The work of a scalar multiplication does not depend on the scalar", "statement": "The sequence and the number of curve operations that ScalarMult performs do not depend on the secret scalar: the nonce of a signature, the ephemeral key of an encryption, the private key in Decrypt.", "quantifier": "every scalar, curve point and signature", "why_tests_cant": "tests compare results, not the operations that lead to them", "anchors": ["sm2/sm2.go: 43-51, 83-97 (curve), Encrypt:262-306, Decrypt:308-346, SignToRS:488-531", "crypto/elliptic (Go 1.12) elliptic.go: ScalarMult"]}
{"id": "C117", "title": "Decrypting and removing the padding tells nothing about modified ciphertexts", "statement": "CBCDecrypt followed by PKCS5UnPadding refuses a modified ciphertext, or at least shows nothing of the message by the length of what it returns.", "quantifier": "every key, initialisation vector, ciphertext of whole blocks and block of it", "why_tests_cant": "tests decrypt what they encrypted", "anchors": ["sm4/sm4.go: CBCDecrypt:282-296", "util/padding.go: PKCS5UnPadding:11-15"]}
{"id": "C118", "title": "PrintT prints the table of the compression function", "statement": "The text written by PrintT is a brace, 64 constants of eight hexadecimal digits and a brace; the constants are those of gT, which are those of the standard.", "quantifier": "the 64 rounds; the formatting for every 32-bit number", "why_tests_cant": "the output is compared by eye, if at all", "anchors": ["sm3/sm3.go: gT:15-23, PrintT:282-301"]}
{"id": "C119", "title": "One SM4 cipher can be used by several goroutines", "statement": "Goroutines that call Encrypt and Decrypt of one cipher on memory of their own get, in every interleaving of their memory accesses, what the standard says each would get alone; all other memory and the round keys stay as they are; there is no data race; and every schedule ends after 64 accesses per call.", "quantifier": "every number of goroutines, every list of calls of each, every position of the windows (overlapping within a goroutine), every interleaving, every key and memory", "why_tests_cant": "a test runs a few of the interleavings; the race detector sees only what was run", "anchors": ["sm4/sm4.go: sm4Cipher:72-75, Encrypt:92-100, Decrypt:102-110, processBlock:169-188"]}
{"id": "C120", "title": "Ciphertexts show nothing of the messages but their length", "statement": "Without the key, the ciphertexts of ECBEncrypt and CBCEncrypt under one key do not tell whether blocks of messages are equal or how blocks differ.", "quantifier": "every key, every pair of messages (also one with itself), every pair of block positions, every initialisation vector", "why_tests_cant": "a relation between two runs for all messages; equal ciphertext blocks under CBC are not met by tests", "anchors": ["sm4/sm4.go: ECBEncrypt:226-241, CBCEncrypt:264-278"]}
{"id": "C121", "title": "Confirmed key exchange means equal keys", "statement": "If the initiator accepts the responder's tag and ResponderConfirm accepts the initiator's, both sides hold the same key; and keys of different lengths from the same exchange do not tell each other.", "quantifier": "every key pair, ephemeral key pair and id of both sides, every pair of key lengths in 1..128 bits", "why_tests_cant": "tests run both sides with the same key length", "anchors": ["sm2/keyexchange.go: kdfForExch:45-75, CalculateKeyWithConfirmation:105-144, ResponderConfirm:146-148"]}
{"id": "C122", "title": "SM2 keys in several goroutines", "statement": "Goroutines that sign, verify, encrypt, decrypt, exchange and make keys with the same keys and the same curve at the same time get the results they get alone; the numbers of the keys and of the curve keep their values at every moment; there is no data race on them; every goroutine can always go on, and all end.", "quantifier": "every number of goroutines, every list of calls of each, every valid keys (also shared and overlapping), every memory, every interleaving of the single accesses to numbers", "why_tests_cant": "a race detector sees the schedules that happened; a function that changes a number and puts it back is right in every test with one goroutine", "anchors": ["sm2/sm2.go: GenerateKey:99-112, CalculatePubKey:182-187, Encrypt:262-306, Decrypt:308-346, SignToRS:488-531, Sign:534-541, VerifyByRS:543-575, Verify:578-585", "sm2/keyexchange.go: CalculateKeyWithConfirmation:105-144", "util/bigint.go"]}
{"id": "C123", "title": "Public keys of small order on other curves", "statement": "An operation with a public key from outside is safe against keys that are no point of prime order of the SM2 curve: a ciphertext stays closed to those who see it, no signature is accepted that nobody with a private key made, an exchanged key is not computable from public values.", "quantifier": "every pair of numbers as public key, every message, type, random source and identity; every order m of the pair on the curve through it", "why_tests_cant": "tests use keys from GenerateKey, which are on the curve; an order is a statement on all scalars", "anchors": ["sm2/sm2.go: Encrypt:262-306, VerifyByRS:543-575, RawBytesToPublicKey:114-123, CalculatePubKey:182-187", "sm2/keyexchange.go: calculateU:28-43, CalculateKeyWithConfirmation:105-144"]}
{"id": "C124", "title": "SM2 leaves the caller's bytes alone and returns memory of its own", "statement": "No call of Encrypt, Decrypt, MarshalCipher, UnmarshalCipher, Sign, Verify, CalculateKeyWithConfirmation or of the key encodings changes a byte of any array that existed before it, whatever its outcome. What it returns lies in arrays that did not exist before, so that it shares no memory with the arguments, and has the bytes of the computation on byte strings.", "quantifier": "every memory, all valid slices as arguments (with any offset, spare capacity and overlap), every key, type, random source, every amount of spare capacity that allocations leave", "why_tests_cant": "tests compare results, not the rest of memory; aliasing shows only for particular capacities, offsets and later writes", "anchors": ["sm2/sm2.go: GetUnCompressBytes:135-159, GetRawBytes:161-180, xor:204-208, bigIntTo32Bytes:211-219, kdf:221-250, Encrypt:262-306, Decrypt:308-346, MarshalCipher:348-385, UnmarshalCipher:387-439, getZ:441-459, Sign:534-541, Verify:578-585", "sm2/keyexchange.go: kdfForExch:45-75, CalculateKeyWithConfirmation:105-144"]}
{"id": "C125", "title": "A parsed request or certificate does not change when its buffer is used again", "statement": "What ParseCertificateRequest and ParseCertificate return does not depend on what happens to the caller's buffer afterwards: VerifyCSRSign, FillCertificateTemplateByCSR, CreateCertificateInfo and IssueCertificateBySoftCAKey work on what was parsed.", "quantifier": "every memory, every buffer (any offset and capacity), every accepted request or certificate, every later content of the memory", "why_tests_cant": "tests read each file into an array of its own and never write to it again", "anchors": ["sm2/cert/gmx509.go: publicKeyInfo:54-58, tbsCertificateRequest:60-66, certificateRequest:68-73, ParseCertificateRequest:275-286, parseCertificateRequest:288-340, VerifyCSRSign:536-539, FillCertificateTemplateByCSR:541-551, certificate:956-961, tbsCertificate:963-977, CreateCertificateInfo:985-1036, IssueCertificateBySoftCAKey:1038-1044, CreateCertificate:1046-1055, ParseCertificate:1058-1069, parseCertificate:1071-1297"]}
{"id": "C126", "title": "What Bytes returned stays as it is", "statement": "Builder.Bytes returns what was added to this builder. The bytes of the slice it returned do not change when the builder is used further, and a builder writes to no memory of its caller.", "quantifier": "every memory, buffer and growth policy of append, growing and fixed builders, all programs before and after the call of Bytes (continuations, errors, panics, calls on ancestors)", "why_tests_cant": "whether memory is shared depends on the capacity of the buffer, which tests do not vary; no test calls Bytes twice", "anchors": ["cryptobyte/builder.go: Builder:23-32, NewBuilder:37-41, NewFixedBuilder:46-51, Bytes:55-60, BytesOrPanic:64-69, addLengthPrefixed:171-198, flushChild:200-274, add:276-291"]}
{"id": "C127", "title": "What was read from a String is independent of the String", "statement": "The slices handed out by the cryptobyte.String readers are windows of the parsed buffer, inside the length of the String they were read from, and hold what the reader documents, also when the same variable is the String and the output. What a program does with them does not change what is still to be read, and a read that fails leaves the output variable alone.", "quantifier": "every memory and slice (any spare capacity), all programs of read calls with any pointers and assignments between variables, every element, every byte string appended or stored", "why_tests_cant": "sharing depends on the capacity of slices; tests compare contents only, right after the call, and pass different variables", "anchors": ["cryptobyte/string.go: read:26-33, Skip:36-38, readLengthPrefixed:98-119, ReadBytes:144-151, CopyBytes:155-162", "cryptobyte/asn1.go: ReadASN1BitStringAsBytes:476-488, ReadASN1:502-508, ReadASN1Element:515-521, ReadOptionalASN1:560-569, ReadOptionalASN1OctetString:624-643, readASN1:662-732"]}
{"id": "C128", "title": "What is issued is the standard's encoding, octet by octet", "statement": "A certificate that IssueCertificateBySoftCAKey returns is the octets RFC 5280 4.1 lays down for the serial number, the issuer's subject, the template's validity and subject, the key of the request and the extensions in their order, followed by the algorithm and the signature; the contents of every generated extension are those of RFC 5280 4.2; a request that CreateCertificateRequest returns is the octets of RFC 2986 with the key as uncompressed point.", "quantifier": "all templates with times of the years 1 to 9998, all parents and requests, keys, user ids and tapes, outputs under 2 GiB; for each extension the conditions of its own theorem (addresses of 4 or 16 octets, masks that fit, object identifiers of int components)", "why_tests_cant": "round trips cannot see a wrong tag or object identifier that writer and reader share; the octets depend on all fields of the template together", "anchors": ["sm2/cert/gmx509.go: CreateCertificateRequest:75-206, marshalPublicKey:243-253, subjectBytes:553-559, buildExtensions:691-983, CreateCertificateInfo:985-1036, IssueCertificateBySoftCAKey:1038-1044, CreateCertificate:1046"]}
{"id": "C129", "title": "Renewing a certificate keeps its content", "statement": "A certificate that ParseCertificate accepted, given to CreateCertificateInfo as template with another serial number and validity, leads to a certificate that ParseCertificate accepts and that has the same extensions and the same subject, key usages, basic constraints, subject key identifier, locations, alternative names, policies, name constraints and distribution points.", "quantifier": "all octet strings that parse as certificates, all new serial numbers and times of the years 1 to 9998, parents with readable subject, parsed requests, CA keys, user ids and tapes; URIs that net/url reads back", "why_tests_cant": "the old certificate is any accepted octet string, not only one this code wrote; every field has to be in the range that the writer can handle, which is an invariant over all extensions in any order and repetition", "anchors": ["sm2/cert/gmx509.go: ParseCertificate:1058-1069, parseCertificate:1071-1297, parseNameConstraintsExtension:1299-1457, buildExtensions:691-983, CreateCertificateInfo:985-1036, IssueCertificateBySoftCAKey:1038-1044"]}
{"id": "C130", "title": "SM4 in Go's stream modes", "statement": "The cipher.Block of NewCipher in cipher.NewCTR, cipher.NewOFB and cipher.NewCFBEncrypter/NewCFBDecrypter gives the counter, output feedback and cipher feedback modes of SM4 (SP 800-38A, GB/T 17964), however the message is divided into calls of XORKeyStream; nothing is written behind the bytes of the source, and decrypting inverts encrypting.", "quantifier": "all keys and initial vectors of 16 bytes, all messages, all divisions into calls, all destinations at least as long as their sources, also different divisions for encrypting and decrypting", "why_tests_cant": "the modes keep a buffer of 512 bytes over the calls and encrypt into slices longer than a block; all alignments of calls with the buffer and the carry of the counter cannot be enumerated", "anchors": ["sm4/sm4.go: NewCipher:77-86, BlockSize:88-90, Encrypt:92-100, processBlock:169-188"]}
{"id": "C131", "title": "Chains of certificates", "statement": "A certificate made by CreateCertificateInfo and IssueCertificateBySoftCAKey with a parsed certificate as the parent and the private key of that one is tied to it as RFC 5280 asks: the issuer name is the parent's subject octet for octet, the authority key identifier is the parent's subject key identifier, the signature verifies with the parent's key, and the parent may issue certificates (CA flag, key usage, path length, validity, name constraints).", "quantifier": "all parents that ParseCertificate accepts, all templates, requests, keys, user ids and nonces; chains of any length", "why_tests_cant": "names, extensions, keys and chain lengths are unbounded; a test sees one chain", "anchors": ["sm2/cert/gmx509.go: CreateCertificateInfo:985-1036, IssueCertificateBySoftCAKey:1038-1044, ParseCertificate, subjectBytes"]}
{"id": "C132", "title": "A ciphertext is bound to its key and its message", "statement": "The integrity tag of a ciphertext commits to the private key and the message: a ciphertext that two private keys accept is a ciphertext of the same key and the same message, what is encrypted for one key is refused by every other key, and two accepted ciphertexts with the same tag have the same message and shared point, unless the inputs of the two tags are a collision of SM3.", "quantifier": "all private keys, ciphertexts below 2 GiB, layouts, messages and nonces", "why_tests_cant": "the claim is about all pairs of keys and ciphertexts; a test with a wrong key sees one refusal", "anchors": ["sm2/sm2.go: Decrypt:308-346, kdf:221-250"]}
{"id": "C133", "title": "The integer readers panic for wrong types, not for wrong data", "statement": "Whether ReadASN1Integer or ReadOptionalASN1Integer panics depends on the types of the arguments out and defaultValue only, never on the input, and a variable of an integer type takes exactly the minimal encodings of the values of its type.", "quantifier": "all inputs, tags, types and values of the interface{} arguments", "why_tests_cant": "a test with an input that has the optional element does not see the panic of an input without it; types and inputs are unbounded", "anchors": ["cryptobyte/asn1.go: ReadASN1Integer:250-275, ReadOptionalASN1Integer:586-618"]}
{"id": "C134", "title": "Bytes reports the first error", "statement": "If anything fails while a message is built, the error Bytes returns is the first one in the order of the calls, wherever in the nested continuations it occurred, and its text names the offending length, tag or object identifier.", "quantifier": "all programs of builder calls with arbitrarily nested continuations, all buffers and growth policies of append", "why_tests_cant": "which error survives depends on the order and nesting of the failing calls, of which there are unboundedly many", "anchors": ["cryptobyte/builder.go: callContinuation:146-170, addLengthPrefixed:172-198, flushChild:200-274, add:276-291, AddValue:304-309", "cryptobyte/asn1.go: AddASN1GeneralizedTime:104-112, AddASN1ObjectIdentifier:162-174, MarshalASN1:192-205, AddASN1:211-223"]}
{"id": "C135", "title": "SM4's memory accesses tell nothing about key and data", "statement": "The number, the order and the addresses of the table lookups made by the key schedule and by the encryption and decryption of a block are the same for all keys and all blocks.", "quantifier": "all 16-byte keys, all 16-byte blocks, all rounds", "why_tests_cant": "independence of the trace is a relation between all pairs of runs, and that a trace determines the key is a statement about all pairs of keys", "anchors": ["sm4/sm4.go: expandKey:112-136, tau:138-147, processBlock:169-188"]}
{"id": "C136", "title": "SM4 has no related keys", "statement": "No two different keys have round keys that are equal up to a shift by some rounds, up to a word added to all of them (as with the complementation rule of DES), or up to the order being reversed (a key whose encryption is the decryption under another or the same key); none of this happens even for five consecutive rounds.", "quantifier": "all pairs of 16-byte keys, all positions in the schedule, all masks", "why_tests_cant": "a statement about all pairs of 128-bit keys", "anchors": ["sm4/sm4.go: expandKey:112-136, tau:138-147, lAp:149-151, tAp:153-155, processBlock:169-188, cK table"]}
{"id": "C137", "title": "SM3 compresses by a permutation with feed-forward", "statement": "For a fixed block the 64 steps of the compression function permute the chaining values, so that the only place where information about the chaining value is lost is the final xor; the message expansion loses nothing of the block: any sixteen consecutive expanded words determine it; and each block leaves exactly one chaining value unchanged.", "quantifier": "all blocks, all 256-bit chaining values, all windows of sixteen of the 68 expanded words", "why_tests_cant": "bijectivity on 2^256 values for each of 2^512 blocks", "anchors": ["sm3/sm3.go: processBlock:147-216, p0:247-251, p1:253-257, ff0, ff1, gg0, gg1:259-273"]}
{"id": "C138", "title": "Nested messages are read exactly as they are written", "statement": "For every message format built from fixed-size integers, fixed-size byte strings, ASN.1 INTEGER and ENUMERATED values, length prefixes of 8, 16 or 24 bits, ASN.1 elements, sequences and repetition, nested to any depth, in which the end of each part can be told: the String methods read a message as a value exactly when the Builder methods write this message for this value. So every value is read back, whatever follows it, no value has two messages, and reading arbitrary bytes always returns.", "quantifier": "all formats (by induction on the format), all values, all messages below 2^32 bytes, all growth policies and initial buffers of the Builder", "why_tests_cant": "infinitely many formats; ambiguity of an encoding shows only on inputs that no encoder writes", "anchors": ["cryptobyte/builder.go: 71-141, 180-300", "cryptobyte/string.go: 26-167", "cryptobyte/asn1.go: 22-58, 207-240, 314-375, 421-540"]}
{"id": "C139", "title": "A certificate with a repeated extension is refused", "statement": "RFC 5280, 4.2: a certificate must not include more than one instance of a particular extension. A certificate in which two extensions have the same identifier is refused; in an accepted one every extension field is what the one extension with that identifier says.", "quantifier": "all inputs to parseCertificate, all lists of extensions, all positions and numbers of repetitions", "why_tests_cant": "which of several contradictory extensions wins depends on their order and on the kind of extension, in combinations no test set enumerates", "anchors": ["sm2/cert/gmx509.go: parseCertificate 1117-1294"]}
{"id": "C140", "title": "Certificates and requests cannot be taken for each other", "statement": "The signed part of a certificate and of a request carries no mark of what it is. Still, no bytes are accepted both by ParseCertificate and by ParseCertificateRequest; what is signed in an accepted certificate is never what is signed in an accepted request; what the code signs when it issues a certificate is never the signed part of an accepted request, and what CreateCertificateRequest signs is never accepted as a certificate.", "quantifier": "all bytes, all certificates and requests, all templates, parents and keys", "why_tests_cant": "that no file at all has both readings is a statement about two parsers and all inputs", "anchors": ["sm2/cert/gmx509.go: CreateCertificateRequest 75-160, ParseCertificateRequest and parseCSR 275-340, CreateCertificateInfo 985-1030, ParseCertificate and parseCertificate 1058-1097"]}
{"id": "C141", "title": "A signature belongs to one public key", "statement": "A pair (r, s) is accepted under exactly the public keys (r+s)^-1 (R - sG) for the points R whose x coordinate is r - e modulo n, e being the digest value of id, key and message. For one digest value there are at most four such keys, and two different keys never have the same digest value unless SM3 collides, so nobody can pick a key of their own that fits somebody else's signature other than by a coincidence of hash values.", "quantifier": "all points of the curve, ids below 8192 bytes, messages, pairs (r, s)", "why_tests_cant": "the claim is about all keys for a signature; a test sees that one other key is refused", "anchors": ["sm2/sm2.go: VerifyByRS 543-576, getZ 441-459, calculateE 461-469"]}
{"id": "C142", "title": "Every extension that a request asks for is seen", "statement": "The extensions of an accepted request are exactly those that its extensionRequest attributes ask for, in order: every value of every such attribute counts, an attribute of this type that cannot be read is an error, and the names of the request are those of all its SAN extensions.", "quantifier": "all byte strings that are accepted as requests, with any number of attributes, values and extensions", "why_tests_cant": "a request with one attribute, one value and one SAN extension behaves as expected; what matters are the requests that are built differently", "anchors": ["sm2/cert/gmx509.go: parseCSRExtensions 386-414, parseCertificateRequest 326-337"]}
{"id": "C143", "title": "Exactly which byte strings are requests", "statement": "ParseCertificateRequest accepts a byte string if and only if it is a word of the grammar of PKCS #10 requests for SM2 keys (with the liberties of encoding/asn1: up to five septets for each number of an object identifier, elements of any tag, more octets at the end of each SEQUENCE), and then returns exactly the parts that the grammar names: signed part, version, subject, key, extensions, names, signature. Every other byte string gives an error. The parts are determined by the bytes.", "quantifier": "every byte string and every combination of results", "why_tests_cant": "the set of accepted byte strings is infinite, and so is the set of rejected ones; tests sample both", "anchors": ["sm2/cert/gmx509.go: ParseCertificateRequest 275-286, parseCertificateRequest 288-340, parsePublicKey 342-367, parseCSRExtensions 386-414, parseSANExtension 495-526"]}
{"id": "C144", "title": "Exactly which byte strings are certificates", "statement": "ParseCertificate accepts a byte string if and only if it is a word of the grammar of X.509 certificates for SM2 keys (with the liberties of encoding/asn1, and with each of the ten known extensions readable according to its own grammar), and then returns exactly the record that the grammar determines, every field included: the fixed parts, and for each extension in order the fields it sets and whether it counts as unhandled. Every other byte string gives an error. The result is determined by the bytes.", "quantifier": "every byte string and every result record", "why_tests_cant": "the sets of accepted and of rejected byte strings are infinite; optional fields and extensions can be combined, repeated and malformed in unboundedly many ways", "anchors": ["sm2/cert/gmx509.go: ParseCertificate 1058-1069, parseCertificate 1071-1297, parseNameConstraintsExtension 1299-1458, isValidIPMask 1460, parsePublicKey 342-367, parseSANExtension 495-526"]}
{"id": "C145", "title": "Differences spread in SM4", "statement": "For every key and any two different blocks, in any seven consecutive rounds at least five, in any eight at least six, and in the whole block at least 24 of the 128 indices into the S-box table differ; two words that differ in n of their four bytes are taken by the round transform to words that differ in at least 5 - n bytes; and for each difference other than 0 of the input of the S-box, each difference of the output is taken by at most four of the 256 pairs.", "quantifier": "all round keys (so all keys, encryption and decryption), all pairs of different blocks, all windows of rounds; all pairs of words; all pairs of byte differences", "why_tests_cant": "there are 2^256 pairs of blocks for each of 2^128 keys; the pairs with the fewest differing lookups are the ones random tests do not meet", "anchors": ["sm4/sm4.go: tau 138-147, l 190-193, t 195-197, f0-f3 208-222, processBlock 169-188, sBox 16-49"]}
{"id": "C146", "title": "What is shown of a certificate to be signed is what will be signed", "statement": "The fields of the TBSCertificate that CreateCertificateInfo returns are, when encoded, the bytes in its Raw that will be signed, whatever the caller does afterwards with the template, the parent and the request; and CreateCertificateInfo changes none of its arguments.", "quantifier": "all memories, templates, parents, requests whose slices are windows of existing arrays; all later memories", "why_tests_cant": "a test looks at the result right after the call; the sharing shows when the caller uses its template, serial number or buffers again", "anchors": ["sm2/cert/gmx509.go: CreateCertificateInfo 985-1036, subjectBytes 553-559, buildExtensions 691-950, TBSCertificate 963-977, IssueCertificateBySoftCAKey 1038-1044, CreateCertificate 1046-1055"]}
{"id": "C147", "title": "Certificates are parsed alike on platforms where int has 32 and 64 bits, without a panic", "statement": "On a platform where int has 32 bits ParseCertificate returns, for every input, what it returns on a platform where int has 64 bits; in particular it never panics.", "quantifier": "all certificates and name constraints extensions of less than 2^31 bytes, all environments", "why_tests_cant": "tests run on 64-bit machines, where the conversion of the length to int never gives a negative number; the inputs that matter are malformed elements that announce more than 2 GiB", "anchors": ["cryptobyte/asn1.go: readASN1 662-732, in particular 724-728; ReadASN1 502-508; ReadOptionalASN1 560-569", "cryptobyte/string.go: read 26-33", "sm2/cert/gmx509.go: parseNameConstraintsExtension 1299-1457, parseCertificate 1071-1297, ParseCertificate 1058-1069"]}
{"id": "C148", "title": "A ciphertext decrypted in the wrong layout is refused, or a digest coincides", "statement": "Decrypting with C1C3C2 what Encrypt made with C1C2C3, or the other way round, returns the error for changed ciphertexts, unless the SM3 digest over the other plaintext is equal to the 32 bytes at the place of the tag; then the plaintext has the length of the message, and it is the message exactly when the ciphertext is the same byte string in both layouts.", "quantifier": "all private keys, all messages of less than 2^31 - 97 bytes, all random tapes, both ways round", "why_tests_cant": "a test tries one message and sees the error; whether another message of another length could come out silently is a statement about every ciphertext", "anchors": ["sm2/sm2.go: Encrypt 262-306, in particular 294-304; Decrypt 308-346, in particular 324-345"]}
{"id": "C149", "title": "A ciphertext has one accepted DER form", "statement": "UnmarshalCipher turns exactly one byte string into a given ciphertext, the one that MarshalCipher makes of it.", "quantifier": "all ciphertexts, all byte strings, both layouts", "why_tests_cant": "round-trip tests show that one form is accepted; that no other is accepted is a statement about all byte strings", "anchors": ["sm2/sm2.go: MarshalCipher 348-385, UnmarshalCipher 387-439, bigIntTo32Bytes 211-219; the structs 62-72"]}
{"id": "C150", "title": "What is read from a certificate or a request is no larger than it", "statement": "The fields of a parsed certificate or request that hold its octets lie in it side by side, names are no larger than their encodings, and everything read from extensions together is no larger than their values, so that a short input cannot make a large result.", "quantifier": "all byte strings that are accepted, with any number of repeated and nested extensions", "why_tests_cant": "a bound on the size of the result for all inputs; tests measure single inputs", "anchors": ["sm2/cert/gmx509.go: parseCertificate 1071-1297, parseCertificateRequest 288-340, forEachSAN 416-458, parseSANExtension 495-526, getValues 1334-1445"]}
{"id": "C151", "title": "Verification decides, whatever key and signature it is given", "statement": "Verify and VerifyByRS return true or false for every public key that RawBytesToPublicKey takes, on the curve or not, every identity, every message and every byte string as signature; they never panic.", "quantifier": "all pairs of integers as public key, all identities, messages, pairs (r, s) and byte strings as signature", "why_tests_cant": "keys off the curve, signatures at the edges of the range and inputs of 2^31 bytes; a panic for one of them stops the verifying program", "anchors": ["sm2/sm2.go: getZ 441-459, calculateE 461-469, SignToRS 488-531, VerifyByRS 543-575, Verify 578-585", "sm3/sm3.go: Write 88-121"]}
{"id": "C152", "title": "The attributes of a request are all there", "statement": "The field Attributes of a parsed request has every attribute of the request, in the order of the request, with its type and all its values.", "quantifier": "all byte strings that are accepted as requests, with any number of attributes of any type, any values and any nesting", "why_tests_cant": "the set of attributes that are dropped is a condition on all encodings of an attribute; tests try the attributes the library writes itself", "anchors": ["sm2/cert/gmx509.go: parseRawAttributes 370-382, parseCertificateRequest 288-340", "crypto/x509/pkix: AttributeTypeAndValueSET, AttributeTypeAndValue"]}
{"id": "C153", "title": "A request made from a request asks for the same", "statement": "A parsed request can be the template of a new request; the new request then has the same subject, attributes, extensions and names, and with the same key the same signed part.", "quantifier": "all accepted requests, all key pairs, identities and random tapes of the second request", "why_tests_cant": "the merge of names into the attributes must find them there for every list of attributes and extensions; tests make requests from fresh templates only", "anchors": ["sm2/cert/gmx509.go: CreateCertificateRequest 71-200, parseCertificateRequest 288-340, parseRawAttributes 370-382"]}
{"id": "C154", "title": "The two readers of DER agree", "statement": "The library reads DER with encoding/asn1 (signatures, ciphertexts, keys, certificates) and with its own package cryptobyte. On the same octets both find the same value and the same rest, or both refuse: for single elements, INTEGER, OCTET STRING, BIT STRING, SEQUENCE, OBJECT IDENTIFIER, BOOLEAN, and so for whole signatures and ciphertexts.", "quantifier": "all byte strings shorter than 2^31", "why_tests_cant": "a difference is a byte string that one reader accepts and the other does not; they differ only on rare forms (five septets, tag numbers of several octets), which tests of each reader alone do not compare", "anchors": ["cryptobyte/asn1.go: readASN1 662, ReadASN1Boolean 227, readASN1BigInt 294, ReadASN1ObjectIdentifier 396, ReadASN1BitString 454, ReadASN1Bytes 493, ReadAnyASN1 528", "sm2/sm2.go: UnmarshalSign 479-486, UnmarshalCipher 387-439"]}
{"id": "C155", "title": "The two writers of DER agree", "statement": "For the same values the cryptobyte builder and encoding/asn1 write the same octets, or both report an error: INTEGER, OCTET STRING, BIT STRING, BOOLEAN, OBJECT IDENTIFIER, and whole signatures (MarshalSign) and ciphertexts (MarshalCipher).", "quantifier": "all values whose encodings are shorter than 2^31 octets, any buffer, heap and program before them in the builder", "why_tests_cant": "the two programs compute lengths and signs differently; that they agree for all integers and identifiers, also where int64 arithmetic overflows, is a statement about pairs of programs", "anchors": ["cryptobyte/asn1.go: AddASN1BigInt 61-93, AddASN1OctetString 95-99, AddASN1BitString 116-121, AddASN1ObjectIdentifier 162-174, AddASN1Boolean 176-184", "sm2/sm2.go: MarshalSign 471-477, MarshalCipher 348-385"]}
{"id": "C156", "title": "Messages can be processed in pieces", "statement": "A message cut at block borders can be encrypted and decrypted piece by piece: in ECB independently, in CBC with the last ciphertext block before a piece as its IV; the results put together are those of the whole message. Any piece of a CBC ciphertext can be decrypted alone.", "quantifier": "all keys and IVs of 16 bytes, all messages of whole blocks, all cuts at block borders, empty pieces included", "why_tests_cant": "every number of blocks and every position of the cut", "anchors": ["sm4/sm4.go: ECBEncrypt, ECBDecrypt, CBCEncrypt, CBCDecrypt 226-300"]}
{"id": "C157", "title": "What the ciphertexts of ECB and CBC show of the messages", "statement": "Two blocks of ECB ciphertexts under a key are equal exactly if the blocks of the messages are. Two blocks of CBC ciphertexts under a key are equal exactly if the blocks of the messages, combined with the ciphertext blocks (or IVs) before them, are. Two messages encrypted in CBC under one key and one IV give ciphertexts that agree in exactly as many blocks at the beginning as the messages do, and different messages give different ciphertexts.", "quantifier": "all keys, IVs and messages that ECBEncrypt and CBCEncrypt accept, all pairs of blocks", "why_tests_cant": "every pair of messages and of positions; that unequal blocks stay unequal cannot be tested for 2^128 blocks", "anchors": ["sm4/sm4.go: ECBEncrypt, CBCEncrypt 227-300"]}
{"id": "C158", "title": "How long signatures and ciphertexts are", "statement": "What Sign returns has between 8 and 72 octets, and its length is fixed by the numbers of bits of r and s: 8 + bits(r)/8 + bits(s)/8. What Encrypt returns is 97 octets longer than the message; the form that MarshalCipher makes of it is between 44 and 116 octets longer than the message.", "quantifier": "all private keys, user identities, messages, random tapes and both layouts; messages shorter than 2^31 - 128 for the DER form", "why_tests_cant": "the shortest signatures occur with probability 2^-496; every number of bits of r and s", "anchors": ["sm2/sm2.go: Encrypt 262, MarshalCipher 348, MarshalSign 471, SignToRS 488, Sign 534"]}
{"id": "C159", "title": "Changes of ECB and CBC ciphertexts are noticed", "statement": "A ciphertext of ECBEncrypt or CBCEncrypt that was changed, or is decrypted with a changed IV, is refused, or what is decrypted cannot be predicted.", "quantifier": "all keys and IVs of 16 bytes, all ciphertexts of whole blocks, all changes", "why_tests_cant": "tests decrypt what they encrypted", "anchors": ["sm4/sm4.go: ECBDecrypt 245-260, CBCDecrypt 282-296"]}
{"id": "C160", "title": "A missing identity means the same in signatures and in the key exchange", "statement": "A nil identity stands for the same identity everywhere in the package: what Sign and Verify take for nil, CalculateKeyWithConfirmation takes for nil too.", "quantifier": "all keys, ephemeral keys, identities, roles and key lengths", "why_tests_cant": "tests give the same argument on both sides of one operation", "anchors": ["sm2/keyexchange.go: CalculateKeyWithConfirmation 105-144", "sm2/sm2.go: SignToRS 491-493, VerifyByRS 553-555"]}
