# Formal model of ZZMarquis/gm in Lean 4 — design

## Technique
The Go code is read as text and re-expressed, function by function, as total computable Lean functions over
`List (BitVec 8)`, `Nat`, `Int`, `BitVec 32/64` and plain structures. A Go call ends in one of four ways, which are explicit
(`Res` in `Base/Basic.lean`): a value, an `error`, a panic, or "the random tape supplied ended before the loop did". No
function is totalised by a default value: an index out of range, a nil dereference or an explicit `panic` of the code is
`Res.panic`. Every model definition cites the file and lines it models.

The property theorems live in `lean/Verif/Props/*.lean` and are named `Cnn_…`. The suffixes mean: `_partial` — the
property holds under the hypotheses shown, but not (or not proved) in full; `_violated` — the negation, proved with a concrete
witness or in general form. Specifications (`…Spec.lean`) do not use the model. Each theorem with hypotheses is followed by an
`example` which meets them; these run the model on concrete data in the kernel.

## Layout (lean/Verif)
| path | models | from |
|---|---|---|
| `Base/Basic` | outcomes, big-endian numbers, `big.Int.Bytes/SetBytes` | — |
| `Util/Heap`, `Util/Padding` | Go slices with backing arrays, capacity and aliasing; util/padding.go | repo |
| `Sm3/Model` | sm3/sm3.go as a state machine | repo |
| `Sm4/Model`, `Sm4/Stream`, `Sm4/Trace` | sm4/sm4.go with ECB, CBC; the cipher.BlockMode CBC of Go; its stream modes; the table reads | repo, Go 1.12 crypto/cipher |
| `CB/Str`, `CB/Read` | cryptobyte/string.go and the readers of asn1.go | repo |
| `CB/Builder`, `CB/BuilderMemory`, `CB/Add` | cryptobyte/builder.go and the `Add…` methods of asn1.go, over explicit memory | repo |
| `CB/Time`, `CB/Dynamic` | `AddASN1GeneralizedTime`, `ReadASN1GeneralizedTime`; the `interface{}` arguments of the integer readers | repo |
| `EC/Model` | generic `CurveParams` methods; util/bigint.go, util/ec.go | Go 1.12 crypto/elliptic; repo |
| `EC/Store`, `Sm2/Store` | the same code and sm2.go, keyexchange.go on a memory of numbers with pointers; math/big methods read operands, then write the receiver; a program is a tree of single accesses that is run on a memory | Go 1.12 math/big contract, crypto/elliptic; repo |
| `Sm2/Buffers` | sm2.go and keyexchange.go on a memory of byte arrays: `make`, `append`, `copy`, slice expressions, index writes | repo |
| `Cert/Memory` | parsing of requests and certificates on slices: which fields are windows of the input | repo; Go 1.12 encoding/asn1 |
| `EC/Prime`, `EC/Group`, `Sm2/Curve`, `Sm2/Order` | no model: primality of `P` and `N` (Pratt certificates), the Jacobian code computes Mathlib's group law, `G` has order `N`, the curve has `N` points | — |
| `Sm2/Model`, `Sm2/Exchange` | sm2/sm2.go; sm2/keyexchange.go, for the one curve that the package has | repo |
| `Der/Model`, `Der/Types` | encoding/asn1 for the types used | Go 1.12 encoding/asn1 |
| `Der/GoTime` | `time.Parse` and `Time.Format` for the ASN.1 layouts | Go 1.12 time |
| `Cert/Leaf`, `San`, `Ext`, `Parse`, `Csr` | sm2/cert/gmx509.go | repo |
| `Cert/Types`, `Cert/Name`, `Cert/Utf8` | pkix structures, `pkix.Name`, runes of strings | Go 1.12 crypto/x509/pkix, unicode/utf8 |
| `*/Spec`, `*Spec` | GM/T 0002, 0003, 0004, DER (X.690), RFC 3629, RFC 5280 pieces, calendar | the standards |
| `*/…Lemmas`, `Proof`, `RoundTrip`, `Accept`, … | helper lemmas | — |
| `Props/*` | the property theorems | — |

## Per property: model and proof method
| id | modelled | method |
|---|---|---|
| C01, C02 | `Write/Sum` machine with index panics; spec `SM3 : Bytes → Bytes` | representation invariant between machine state and message absorbed so far; induction on chunks; block function equal to the standard's recurrences |
| C03 | same machine, any operation history | the state after Reset is the initial one |
| C04 | same; Props/Sm3History | prefix and digest proved; the state change is a violation (concrete history; for every history up to a compression collision). `C04_history` refines every history of Write/Sum/Reset to a two-field description: bytes taken in and bytes counted |
| C05 | same | exact panic condition by the invariant; empty writes violate |
| C06, C07 | `expandKey`, `processBlock` | Feistel inversion by induction over round keys; equality with the standard's recurrence |
| C08 | byte array with two windows | description of the final array |
| C09–C11, C14 | block wrappers, ECB, CBC | induction on blocks |
| C12, C13, C15, C16 | padding on slices with capacity | list arithmetic; violations by witnesses and the extent of the damage |
| C17–C27 | `String` as `Option Bytes` (nil is a case), readers as state transformers | `reader s = some … ↔ s = encoding ++ rest`; `Safe` invariant for no panic, no over-read, only advance |
| C28–C31 | builder machine: shared buffers, pending children, errors, panics, arbitrary growth of capacity | refinement to a denotational encoder by induction on programs; C30 exactly, with what a fixed-size builder leaves of continuations, in `Props/CryptobyteFixed.lean` |
| C32–C34 | key (de)serialisation and generation | big-endian lemmas, group law |
| C35–C37, C40, C62 | sign, verify, `z` value | equation of the standard (independent spec) by the group law and arithmetic mod `N` |
| C38, C39, C47, C63 | DER subset | encode/decode lemmas, exact accepted languages |
| C41 | the nonce loop on tapes of reads | counting: for each key how many of the tapes of `m` reads do not lead to a signature, and the limit |
| C42–C46, C64 | encryption and decryption | keystream lemmas, scalar multiplication commutes, exact panic sets |
| C48–C50, C65–C67 | both sides of the key exchange | group law; independent spec of the standard's values; witnesses; C65 fails exactly when a coordinate begins with a zero byte, up to an explicit SM3 collision |
| C51, C52, C57 | domain labels, masks, mailbox parser | independent grammars, induction on strings |
| C53, C54 | key usage and extended key usage | finite tables by kernel decision, bit-string lemmas |
| C55, C72 | subject alternative names | DER round trip; exact language for every byte string (`C72_exact`, `Props/CertTlvExact`: elements of any tag) |
| C56, C73 | name constraints | cryptobyte exact readers, DER builders |
| C58, C74 | `buildExtensions` | list of sections with override conditions |
| C59, C69, C78, C79 | requests: creation, parsing, verification; attributes in memory shared with the template | DER round trip of every type, chain through sign/verify; `C59_exact`: which created requests can be read; `C79_kept_partial`: which extensions are as asked for |
| C60, C68, C70, C71, C77 | parsers of certificates and requests | `Accept` lemmas: what an accepted input looks like, byte by byte; totality of all parsers for all inputs |
| C61 | critical extensions | definition of "understood" on the bytes; list equality |
| C75, C76 | time types | exact languages; day count as independent specification of instants |
| C80–C83 | `pkix.Name` and RDN sequences | exact reading function, exact encoding, RFC 3629; `C83_exact` for every byte string |
| C84–C88 | issuing: template → certificate bytes → parsed certificate; request → template → certificate | field by field round trip for all templates in range; general negations; C85 also as an equivalence: which templates give a readable certificate |
| C89, C90 | random scalars and nonces | bijection between reads and values |
| C91 | GeneralizedTime of cryptobyte over transcribed `time.Parse/Format` | exact language, round trip; general negations for seconds in the offset and for offsets of 100 hours and more |
| C92 | issuing and parsing chain of C84 | demands of RFC 5280 on the parsed certificate; held for templates that meet their share, general negations otherwise |
| C93, C94 | cryptobyte readers | a combinator lifts locality from the element reader to all others; exact behaviour of failing reads |
| C95 | verification | injectivity of the verification point in s; two residues, two points per abscissa |
| C96, C97 | ciphertexts and their DER form | GM/T 0009 as specification; the stream is a function of the first point |
| C98 | confirmation of the key exchange | reduction to an explicit collision of SM3 |
| C99 | crypto/hmac of Go 1.12 over the sm3 object | abstraction relation of the object; RFC 2104 as specification |
| C100 | parsers of certificates and requests | exact decomposition into three components; the extensions do not look at the outer parts |
| C101 | `makeObjectIdentifier` on 64-bit ints | equality with the natural-number model; general negations |
| C102 | SM4 key schedule | the recurrence run backwards |
| C103 | SM3 | Merkle–Damgård reduction along the chaining values |
| C104 | key pairs | the group has n points and G generates it |
| C105 | signatures | the nonce of an accepted pair is s + (r+s)d; the loop returns on the tape that delivers it |
| C106 | encryption | every point is a multiple of G, so every accepted C1 has a nonce; witness by kernel evaluation |
| C107 | signatures, encryption | linear equations over Z/n; xor of the key streams |
| C108 | certificates | net/url is transcribed; reading is inverted into a grammar, writing is shown to be a section of it |
| C109 | certificates | concrete texts; for plain URIs the grammar of C108 |
| C110 | certificates | net.ParseIP is transcribed; induction over the loop of parseIPv6 |
| C111 | SM2 signatures | verification computes a point with x coordinate in a residue class; at most two classes and two points each |
| C112 | SM3 | length extension: chaining values of the padded data are the digest |
| C113 | SM4 | heap model of the loops; induction over the blocks shows that only the new arrays change |
| C114 | memory of numbers with pointers: `EC/Store.lean`, `Sm2/Store.lean` | refinement: every program appends to memory only and ends as the pure function ends (`EC/StoreLemmas.lean`, `Sm2/StoreLemmas.lean`) |
| C115 | as C114 | negation for every memory and key; the numbers of new keys lie behind the old memory, so assignments to them keep it |
| C116 | sequence of calls `EC.ops` in `EC/Work.lean`; `C116_calls_partial` shows that executing it is `ScalarMult` | decoding the sequence by induction over the bytes; joined with the nonce equation of C107 |
| C117 | `cbcDecrypt` and `pkcs5UnPadding` composed | from C11 and the exact behaviour in C15; `C117_only_partial`: the answers show no other byte |
| C118 | `Sm3/Print.lean`: the text, with `%08X` | the table by kernel evaluation, the formatting by induction on the digits |
| C119 | block calls as programs of single accesses in `Sm4/Conc.lean`, any interleaving | invariant: each goroutine, continued alone, would still end with its own result; footprints |
| C120 | the mode functions of `Sm4/Sm4.lean` | the block cipher is one-to-one (C06), mode equations C10, C11; what holds: bijections of the initialisation vector and of the message, by induction on the block |
| C121 | `calculateKeyWithConfirmation` of `Sm2/Exchange.lean` with two key lengths | the length enters only the cut of the hash; C48_agree; `C121_confirmed_partial`: an accepted tag and equal lengths mean equal keys, or a collision |
| C122 | goroutines over the memory of numbers: `EC/Conc.lean`; programs as trees of accesses `EC/Store.lean` | every program writes only what it allocated (`Sm2/ConcLemmas.lean`), invariant over interleavings, results by C114 |
| C123 | pairs of numbers off the curve: `Sm2/OtherCurve.lean` (the curve code does not depend on B) | group law on the curve through the pair (`EC/Group.lean`), order argument; negations |
| C124 | SM2 on a memory of byte arrays: `Sm2/Buffers.lean` (make, append, copy, slice expressions, index writes) | simulation of every program by the value model with a frame condition (`Sm2/BuffersLemmas.lean`, `BuffersMore.lean`, `BuffersExchange.lean`) |
| C125 | parsing on slices of a memory: `Cert/Memory.lean` (element, contents and rest of every field as slices) | simulation by the value model (`Cert/MemoryLemmas.lean`); violations for every accepted input, and concrete ones by evaluation |
| C126 | the builder machine of C28 with its heap, and the slice `Bytes` returns: `CB/BuilderMemory.lean` | invariant of the machine: old arrays change in the spare capacity of what the outermost builder holds only (`CB/KeepLemmas.lean`) |
| C127 | the readers that hand out slices, on numbered variables and a heap: `CB/StrMemory.lean` | case analysis of each reader against the byte-list model (`CB/StrMemoryLemmas.lean`); invariant over programs of reads |
| C128 | creation of certificates and requests of `Cert/Ext.lean`, `Cert/Csr.lean`; `Cert/WireSpec.lean` lays out certificates, requests and extension contents as octets | what each Go type is marshalled to, field by field (`Cert/WireLemmas.lean`), then composition |
| C129 | parsing of certificates (`Cert/Parse.lean`) followed by creation (`Cert/Ext.lean`); `renew` is the parsed certificate with other serial number and validity | invariant `ReadFields` over `parseExtensions`: every accepted certificate is a template whose parts can be read (`GoodTemplate`), then C84; extensions by C58 |
| C130 | `newCTR/newOFB/newCFB` and `XORKeyStream` of crypto/cipher over `Encrypt` (`Sm4/Stream.lean`), the modes as written in the standards (`Sm4/StreamSpec.lean`) | invariant of the buffer over loops and calls, induction over blocks for the feedback |
| C131 | `createCertificateInfo`, `issueCertificateBySoftCAKey`, `parseCertificate` as before; a link of a chain as in RFC 5280 6.1 | C84 and C129's lemmas on parsed names, induction over the chain; violated: the result as a function of three fields of the parent |
| C132 | `decrypt`, `encrypt` as before; a collision of SM3 as a pair of inputs | C45_exact gives the input of the tag, which determines the shared point and the message; every point has order n |
| C133 | new model `CB/Dynamic.lean`: interface{} values with their types, and what reflect does with them | case analysis on the types over C19 and C22; violated for all pairs of different integer types |
| C134 | builder machine of `CB/Builder.lean`, now with the texts of the errors and with the difference between assigning an error (`AddValue`) and keeping the first (`MarshalASN1`) | induction over the derivation of the first error against the refinement of C28; violations by execution |
| C135 | `Sm4/Trace.lean`: the functions of sm4.go returning also the indices read from `sBox`; caches and timing themselves are not modelled | the indices are the arguments of the round function of the standard; four of them determine the state of the recurrence, and the recurrence runs backwards (as for C102) |
| C136 | as C102 | T' is one-to-one (the S-box by its table; L' applied 16 times is the identity), so equal windows of five round keys force equal constants CK, which differ |
| C137 | `Sm3/Model.lean` (`processBlock`, `expand`) | explicit inverse of a step (p0 and p1 applied four times are the identity), composition over the steps; the expansion's recurrence run backwards |
| C138 | `CB/*.lean`; formats, with their writer and reader, in `Props/CryptobyteFormats.lean` | induction on the format; the Builder enters through the relation `Encodes` (C28), the readers through their exact characterisations |
| C139 | `Cert/Parse.lean` (`parseExtension`, `parseExtensions`) | the code for one extension is a function of the extension alone applied to the certificate (`parseExtension_act`), overwriting some fields and appending to others; induction on the list |
| C140 | `Cert/Parse.lean`, `Cert/Csr.lean`, `Cert/Ext.lean` | the accepted bytes are the written ones: after the INTEGER of a request comes a SEQUENCE of SETs, after the INTEGER of a certificate a SEQUENCE that starts with an OBJECT IDENTIFIER; issued certificates start with the tag of the version; the negation by evaluating a created request |
| C141 | `Sm2/Model.lean` (`verifyByRS`, `getZ`, `calculateE`) | the equation of C36 solved for the key in the group of prime order; two residues below p, two points for each; the hashed bytes end with the key |
| C142 | `Cert/Csr.lean` (`parseCSRExtensions`, `csrExtensionsOf`, `csrSans`), `Cert/Types.lean` (`tyTbsCSR`, `tyPkcs10Attribute`) | soundness of the raw element list by induction; attribute list and extension lists are determined by their bytes; concrete requests for the negations |
| C143 | `Cert/Csr.lean` (`parseCertificateRequest` and everything it calls), `Der/Types.lean` | every parser on the way is shown equivalent to its grammar rule (object identifiers, algorithm identifiers, keys, bit strings, extensions, attributes, lists by induction), then composed |
| C144 | `Cert/Parse.lean` (`parseCertificate` and everything it calls), `Der/Types.lean` | optional and explicitly tagged fields, times, and each of the ten extensions are shown equivalent to their grammar rules, then composed as in C143; the extensions by induction on the list |
| C145 | `Sm4/Model.lean`, `Sm4/Trace.lean` | `l` is linear, commutes with rotations by a byte and is a rotation by a byte when applied four times; one byte: table, two bytes: table of sums, three and four bytes: by the inverse. The differences of the words looked up satisfy d(j+4) = d(j) + l(s(j+1)) + l(s(j+2)) + l(s(j+3)) with s the differences behind the S-boxes; three such relations give five, five give six. Key schedule: the same with `lAp`, which applied 16 times is the identity; words and images with one byte: whole table. S-box: whole table |
| C146 | `Cert/InfoMemory.lean` | slices and numbers with places; simulation of createCertificateInfo on values, step by step; then which array each slice names. Violated: serial number, raw names, extra extensions and key are shared with the arguments |
| C147 | `CB/Int32.lean`, `Cert/Int32.lean` | the reader with int as the signed value of the 32 bits, compared branch by branch with the 64-bit one; then through the readers, the extension, the certificate. Violated: six bytes of an extension make ParseCertificate panic |
| C148 | `Sm2/Model.lean` encrypt, decrypt | from C45_exact (what is accepted) for both layouts, and the lengths of the parts; equal plaintexts force equal texts and tags since the key stream is the same |
| C149 | `Sm2/Model.lean` marshalCipher, unmarshalCipher | from the exact statement about UnmarshalCipher (C63) by comparing the fields; the other forms are constructed. Violated: lengths of the octet strings, signs and what follows are not checked |
| C150 | `Cert/Parse.lean`, `Cert/Csr.lean` | from the exact grammars of C143 and C144: each extension adds at most the length of its value, by induction over the extensions; the field Attributes of a request from the grammar of C152 |
| C151 | `Sm2/Model.lean`, `EC/Model.lean`, `Sm3/Model.lean` | the third coordinate stays reduced, so the inverse exists for every pair of integers; exact condition under which a list of chunks can be written to SM3, by induction |
| C152 | `Cert/Csr.lean` (`parseRawAttributes`), `Cert/Types.lean` (`tyATVSET`) | grammar of the attributes that are kept, both directions, from the exact languages of lists, object identifiers and values; induction over the attributes |
| C153 | `Cert/Csr.lean` (`createCertificateRequest`, `buildAttributes`, `parseCSR`) | both creations are taken apart (C59); what is read back is the list that was written, so the names are in it already (C142) and the merge adds nothing; for the negation every pair survives the merge and nil has no encoding |
| C154 | `CB/Read.lean`, `Der/Types.lean`, `Der/Model.lean`, `Sm2/Model.lean` | each reader has an exact description (C19-C26 for cryptobyte, C101, C143 for encoding/asn1) in terms of X.690; the descriptions are compared |
| C155 | `CB/Add.lean`, `Der/Types.lean`, `Der/OidInt.lean`, `Sm2/Model.lean` (`marshalSign`, `marshalCipher`) | the denotation of builder programs gives the octets of each item; integer contents are unique (X.690 8.3), identifiers go through the same septet writer |
| C156 | `Sm4/Model.lean` (`ecbEncrypt`, `cbcEncrypt`, `cbcDecrypt`) | block by block from C10 and C11; the block before the second piece is the last one of the first |
| C157 | `Sm4/Model.lean` (`ecbEncrypt`, `cbcEncrypt`) | the block cipher is injective (C06), C10, C11; the beginning of a ciphertext by C156 |
| C158 | `Sm2/Model.lean` (`sign`, `marshalSign`, `encrypt`, `marshalCipher`) | the range of r and s (C37), minimality of DER integers, and the DER forms of C38 and C96 |
| C159 | `Sm4/Model.lean` (`ecbDecrypt`, `cbcDecrypt`) | messages in pieces (C156), one block at a time; xor is associative |
| C160 | `Sm2/Exchange.lean` (`calculateKeyWithConfirmation`), `Sm2/Model.lean` (`signToRS`, `verifyByRS`) | the tag of the responder and the one expected (C49) are compared hash by hash |

All can be expressed in the model; none is declared not applicable. What is missing from each `partial` claim is in its note in
`MANIFEST.json`.

## Trusted base
* **Kernel and axioms.** Lean 4.33's kernel. Every theorem of `Verif.Props` depends on a subset of `propext`,
  `Classical.choice`, `Quot.sound` (checked by `collectAxioms` over all theorems of the namespace). No `sorry`, no
  `native_decide`, no `bv_decide`, no axioms. Mathlib is used for its definitions of `ZMod`, primes and Weierstrass curves
  (these occur in the statements about SM2) and for lemmas.
* **The reading of the repo.** The model is tied to the Go text only by the citations; `tools/mutate.py` shows that edits
  of the model break theorems (`seeded/LOG.jsonl`), not that the model is the code.
* **The specifications**: GM/T 0002/0003/0004, X.690, RFC 3629 and RFC 5280 as transcribed in the `Spec` files.
* **Tests of model and specification.** The kernel runs the model on the examples printed in the standards (SM3, SM4; signature,
  encryption and key exchange of GM/T 0003.5: `Props/Sm2Vectors.lean`, `Props/Sm2VectorsExchange.lean`) and on the data of the
  repo's own tests (`Props/RepoVectors.lean`). These are tests, not proofs, and no claim rests on them.
* **Standard library, transcribed as of Go 1.12** (the version of go.mod): crypto/elliptic's generic curve, crypto/cipher's
  CBC and stream modes (C130), math/big (as mathematical integers), encoding/asn1, crypto/x509/pkix names, unicode/utf8, time.Parse/Format,
  crypto/hmac (C99), `net.IP.To4`, net/url's `Parse` and `String` and `net.ParseIP` (`Cert/GoUrl.lean`, C108-C110), `crypto/rand.Read` together with `rand.Int`-like loops of the repo as tapes.
* **Parameters.** `Env` (`Cert/San.lean`): `url.Parse`, `URL.String`, `URL.Host`, `net.ParseIP` are arbitrary functions; a
  theorem which needs a law of one has it as a hypothesis. `goEnv` is the instance with Go's functions; C108 proves the law. Growth of slices by `append` is an arbitrary function.
  Randomness is an arbitrary tape of reads, each succeeding with bytes or failing.
* **Memory of goroutines** (C119): accesses of single cells are interleaved (sequential consistency), which the Go memory model
  promises for programs without data races; freedom from races is proved.

### Simplifications
* Memory: aliasing is explicit where a property is about it (padding, sm4 blocks and modes, builders, CSR attributes, SM2
  arguments and results C124, parsed requests and certificates C125). Elsewhere slices
  are lists, and slicing beyond `len` is a panic. Go allows it up to `cap`; for `Decrypt`, `MarshalCipher` and sm3 `Write` the
  outcome is proved to be the same for every capacity (`Sm2/Capacity`, `Sm3/Capacity`), and the slice expressions of
  cryptobyte are all guarded by comparisons with `len`.
* Exhaustion of memory is not modelled. `int` is 64 bits, except in C147; lengths which would need inputs of 2^63 bytes do not wrap.
  Where 2^31 or 2^32 matters (`sm3` lengths, DER lengths, `uint16`/`uint32` conversions) the wrap is modelled or a bound is a
  visible hypothesis.
* nil: `*big.Int` fields of keys are non-nil and the `Curve` of a key is SM2's; `nil` cryptobyte strings are a case of their own.
* `encoding/asn1`: reflection is unfolded into a codec record per type; field parameters which no struct of the repo uses are
  left out; error texts are abbreviated, so theorems speak of "an error". Object identifiers have natural components (C101 says what
  the `int`s of Go do).
  Dynamic values (`interface{}`) are those that parsing yields.
* Times are calendar fields with a zone offset (no instants inside the model; the specification computes them);
  `Time.UTC` is for offsets below one day.
* In later Go releases the generic curve panics on points outside the curve; the model has Go 1.12's behaviour.
* Concurrency: the package starts no goroutines; global tables are constants. Callers' goroutines: C119 for an SM4 cipher, C114 and C122
  for SM2 keys (SM2 writes to no number that existed before).

### Not modelled
`String`/`Error` methods, `GetSm2P256V1` and `init` (they return/fill constants which the model has as
definitions), util/bigint.go `Sub/Mul/Lsh` in the models of values (one-line wrappers, inlined; on numbers in memory they are in `EC/Store.lean`), the inside of `asn1.Marshal` when called by
`MarshalASN1` of cryptobyte (modelled given its outcome), the tests and examples of the repo.
