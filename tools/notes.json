{
 "C01": "Full conformance to an independent transcription of GM/T 0004-2012 for every list of non-empty chunks below 2^31 bytes.",
 "C04": "Sum returns prefix and digest; it changes the state (pointer copy in sm3.go:42), negation proved with a concrete history and, up to an explicit collision of the compression function, for every history (C04_repeat_violated). C04_history: a small description (bytes taken in, bytes counted) gives exactly what every history of Write, Sum and Reset returns.",
 "C05": "Exact panic condition proved for every reachable state; empty slices and slices of 2^31 bytes or more panic (sm3.go:89, 108, 219). Write is independent of the capacity of its argument.",
 "C12": "Round-trip holds iff the pad count fits a byte; proved as an iff. Fails for block sizes above 255 (byte truncation), negation proved.",
 "C15": "No malformed input is rejected with an error: exact behaviour proved, negation with witnesses.",
 "C16": "Holds when the spare capacity is smaller than the padding; otherwise append writes into the caller's array: extent of the damage proved, negation with a witness.",
 "C23": "Holds for every integer except -1 (AddASN1BigInt(-1) panics, asn1.go:74); negation proved in every context.",
 "C24": "Builder output is DER and invalid OIDs are reported; round-trip for subidentifiers below 2^28; exact reader language proved. Negations: reader refuses components from 2^28, builder overflows for second component near 2^63, reader accepts non-minimal groups.",
 "C25": "The readers are wrong: ReadASN1Boolean expects an INTEGER tag and ReadOptionalASN1Boolean reads from the outer string; negations with witnesses, exact reader behaviour, writer conforms.",
 "C30": "Memory safety for all programs. C30_returns_partial says for every program of additions and continuations exactly when a fixed-size builder returns bytes and which: what is left when the content of every continuation is dropped. C30_exact_violated: whenever the bytes of the growing builder fit, the fixed one returns without an error, and with those bytes exactly when no continuation adds anything (builder.go:271). Panics when a prefix does not fit (C30_overflow_panics_violated).",
 "C31": "A write to an ancestor without error panics; to one with an error it is ignored and the error is reported, so output is never corrupted (C31_no_corruption).",
 "C33": "The length check is exact; points outside the curve, the zero private key and private keys of n or more are accepted (negations with witnesses).",
 "C39": "Exact accepted language proved; the code ignores trailing bytes inside and after the SEQUENCE (encoding/asn1 returns the rest and sm2.go:479 drops it), negation with a witness.",
 "C41": "Decided for every private key that RawBytesToPrivateKey returns (C41_probability_one_partial): over uniformly random reads the probability that Sign has not returned after m reads tends to 0 for every key but n-1, and is 1 for n-1. At least (n-5)/2 of the n-1 nonces end in a signature for keys that are not 0, 1 or -1 modulo n (C41_half_partial, C41_halves_partial). Violated for the key n-1: every nonce gives s = 0 and the loop never ends (C41_violated). Bounds: ids and messages below 2^31 bytes, non-empty message (Write of an empty slice panics).",
 "C44": "Returns as soon as a nonce with a non-zero key stream is delivered; the empty message never terminates (negation for every key and tape).",
 "C46": "Exact panic set proved (short input, bad point, empty C2); otherwise a message or an error. Independent of the capacity of the input slice and of the bytes behind it.",
 "C62": "Public key (0,0) is accepted and every message has a valid signature under it that anyone can make; negation proved. For keys derived from private keys the verification is the standard's.",
 "C63": "Exact panic sets of both functions, exact language accepted by UnmarshalCipher. MarshalCipher is independent of the capacity of its input.",
 "C64": "(0,0) is accepted as a public key and ciphertexts for it are decrypted by the private key 0 (for all messages). C64_never_refused: for every pair of integers Encrypt gives a ciphertext or goes on drawing, there is never an error or panic about the key.",
 "C48": "Agreement for all private keys, ids and key lengths for which the responder returns; the responder returns for all valid keys up to 128 bits unless an x-coordinate is zero (C48_responder_returns).",
 "C50": "Length and standard value proved up to 128 bits without leading zero bytes; negations: more than 128 bits always panics (BlockSize is 16, no loop), a concrete exchange with a leading zero byte gives a key different from the standard's.",
 "C65": "Holds without leading zero bytes; otherwise it fails for every exchange, up to an explicit SM3 collision (C65_responder_exact_violated, C65_initiator_exact_violated), and for a concrete one without that proviso (Bytes() is not padded).",
 "C66": "Neither key of the other side is checked: negation with (1,1) as ephemeral and (0,0) as static key. C66_responder_exact and C66_initiator_exact: for all keys of at most 32 octets per coordinate there is a result unless a number is zero (then SM3 panics); there is never an error about a key.",
 "C51": "Exact acceptance condition and returned labels proved for every byte string; the stated one holds for names without leading dot (and non-empty); negation: names with a leading dot, and the empty name, are accepted.",
 "C57": "Never panics or loops; exact grammar of what is accepted and returned (dot-atom or quoted local part); negation: the domain check also accepts an empty domain and one with a leading dot.",
 "C70": "Negation with a concrete certificate; and C70_inner_algorithm_ignored: in every accepted certificate the inner algorithm can be replaced by any other, and the result is accepted and read the same.",
 "C71": "Negations with concrete certificates and requests (encoding/asn1 accepts all of these); C71_trailing_octets_ignored: to every accepted certificate any octets can be added after the signature.",
 "C72": "Negations with witnesses: INTEGER, constructed and application-class elements are taken as names; non-ASCII bytes are taken and made. C72_exact: what is enforced instead, for every byte string and every result.",
 "C73": "Proved that what follows the base never matters (C73_ignored), negation with witnesses.",
 "C56": "Encoding, round trip and exact acceptance proved, and the exact language of the parser for all byte strings. Negations: '..a' is accepted; a 4-byte address with a 16-byte mask and ill-formed masks do not survive.",
 "C58": "Exact list of sections in order, for every template; extra extensions verbatim at the end and overriding.",
 "C74": "Returns for every template whose extended key usages are known; an unknown ExtKeyUsage value panics (gmx509.go oidFromExtKeyUsage), negation for every unknown value.",
 "C61": "Understood is defined on the bytes; the list is exact, Extensions are exactly those in the bytes (C61_wire, C61_field, C61_complete).",
 "C75": "Exact language of both time types, independent day count for instants.",
 "C76": "Every RFC time is read correctly (C76_rfc_times); negation: missing seconds, zone offsets and early GeneralizedTime are accepted.",
 "C77": "Holds when the field stands directly after the key and the unique identifiers (C77_overlooked_partial, C61_field); negation: an element before it hides it, and a SET instead of a SEQUENCE is ignored.",
 "C59": "Creation, parsing and verification of a request for every template in range (C59_created), including the names of a SAN (C59_names). C59_exact: for templates without attributes, exactly which created requests can be read. Negations: a RawSubject that is not a name, an attribute value that is not an OCTET STRING, a 5-byte IP address and an extension identifier with a number of 2^31 give requests that are created but not parsed.",
 "C78": "The template is unchanged when it holds no extensionRequest attribute or nothing is generated (C78_unchanged_partial), and only that attribute ever changes (C78_others_partial); negation by witness (C78_changed_violated).",
 "C79": "Negation in general form: no extension of a created and parsed request is critical, whatever the template says (C79_lost_violated). What holds: identifiers and values are kept, and extensions that are not critical are reported as requested (C79_kept_partial).",
 "C80": "Exact reading of every RDN sequence (C80_read), exact round trip including the effect of extra names (C80_roundtrip), subject of created requests (C80_request).",
 "C81": "Holds if every field has at most one value (C81_single_partial); negation: country b, a is written in this order (C81_order_violated).",
 "C82": "Exact encoding against an independent specification with RFC 3629 UTF-8 (utf8.Valid proved to accept exactly UTF-8); names below 2^63 bytes.",
 "C83": "C83_exact: for every byte string, with the elements that encoding/asn1 reads whatever their tag described octet by octet.",
 "C84": "C84_issued and C84_fields, for templates in the stated range (GoodTemplate) and certificates below 2^31 bytes.",
 "C85": "Holds for the templates of C84 (C85_readable_partial). C85_exact says exactly which issued certificates are read: names that can be read, extra extensions with small numbers that are readable alone, addresses of 4 or 16 bytes, URIs that are parsed again, valid name constraints, and policies and unknown usages with numbers below 2^31 (raw subjects, if given, being one element each). Negations: a mask that is not contiguous, an address of five bytes, a policy number of 2^31.",
 "C86": "Key, the nine subject fields and the alternative names are those of the request if the template has no RawSubject (C86_requester_partial); negations in general form: RawSubject wins, other attributes are never copied.",
 "C87": "Negation in general form: no extension outside those generated from the template's fields is ever in the certificate (C87_dropped_violated). What holds: the names in the last SAN extension of the request are those of the certificate (C87_names_partial).",
 "C88": "Negation by witness, and in general: creation depends on the key info of the request alone (C88_depends_partial).",
 "C89": "Each scalar below n comes from exactly one 32-byte read (C89_uniform). The range of the standard, 1 to n-2, is violated at both ends: GenerateKey can return the key 0 with the public key (0,0), and n-1, which can never sign (C89_range_violated).",
 "C90": "nextK is the first read in [1, n-1] (C90_nonce), and every nonce belongs to exactly one 32-byte read (C90_uniform).",
 "C91": "Reader: exact language (C91_reader) and safety (C91_total). Builder: round trip for zones with offsets in whole minutes below 100 hours, fraction of the second dropped (C91_roundtrip_partial); years outside 0-9999 reported (C91_reported). Violated: offsets with seconds are written without an error and read back as another instant or not at all (C91_seconds_violated); zones other than UTC are written and read with an offset, which DER forbids (C91_der_violated). Offsets of 100 hours and more, which Go's FixedZone permits, are written without an error and cannot be read (C91_hours_violated).",
 "C92": "Holds for templates that meet the demands which are their own affair (C92_profile_partial). Nothing is checked: negations in general form for serial numbers, validity, repeated extensions, empty issuer, empty subject without names; and witnesses for the version, among them one whose number wraps around to -2^63.",
 "C93": "All readers, signed and unsigned targets of every width.",
 "C94": "Holds for reads of fixed length and of any element (C94_atomic_partial). Negations in general form: ReadASN1 and ReadASN1Element consume an element with another tag, the length-prefixed readers consume a prefix that is too large.",
 "C95": "For keys on the curve (for the key (0,0) see C62). At most four values of s per key, message and r, except for the key -G.",
 "C96": "Layout C1C3C2 gives the standard's form (C96_standard_partial). Negations: C1C2C3 writes hash and message in the other order, for every ciphertext; a DER form cannot be read for the other layout; the byte naming the point form is ignored.",
 "C97": "Both layouts, inputs below 2^31 bytes.",
 "C98": "Proved for ephemeral keys whose coordinates have no leading zero byte (C98_binding_partial, with explicit candidates for the collision). In general violated: the hash is over unpadded numbers and is ambiguous (C98_ambiguous_violated).",
 "C99": "crypto/hmac of Go 1.12 is transcribed in Sm3/Hmac.lean and is part of the trusted base of this claim only. BlockSize() is 16, so the value is HMAC with B = 16 (C99_value_partial, C99_formula_partial), not HMAC-SM3 (C99_standard_violated); Sum cannot be repeated (C99_twice_violated); Reset is right (C99_reset).",
 "C100": "All fields but Raw and Signature are functions of the signed part (C100_certificate, C100_request). Raw is not: octets can be appended inside the outer SEQUENCE of every certificate (C100_fingerprint_violated), and of every request, which still verifies (C100_request_raw_violated).",
 "C101": "Holds for non-negative components without overflow (C101_natural_partial, C101_roundtrip_partial; these also justify the natural numbers in tyOID). Negations: negative components are silently dropped, so an identifier can turn into that of a key usage. The fault is in encoding/asn1 of Go 1.12; the package passes template identifiers on unchecked.",
 "C102": "Both arrays of NewCipher.",
 "C103": "Reduction, for messages that the code accepts; no instance of the hypothesis is known, as for any collision resistant function.",
 "C104": "One scalar below n for every point (C104_unique_partial, C104_exists). The raw parser takes scalars of n and more, so small keys have two encodings (C104_encodings_violated).",
 "C105": "Equality of the two sets, for every key but those congruent to -1 modulo n, which sign nothing (C41).",
 "C106": "The two sets agree except for ciphertexts whose C2 is the message itself (C106_exact_partial). Decrypt does not check for a zero key stream: negation with the nonce 1121 (C106_zero_stream_violated).",
 "C107": "Nonces depend on the random source alone, as in the standard: negations in general form. Two different signatures with one nonce, or one signature and its nonce, give the private key by a formula, as do two signatures whose nonces are a known linear function of each other (C107_related_violated); two ciphertexts with one nonce give the xor of the messages.",
 "C108": "Exact condition: the text of the path had only characters of a path, and the URI is not %2A with a query (C108_exact_partial); then requests and issued certificates have the same URIs (C108_reissue_partial). Otherwise negations: `/%2Fe.x/ y`, read without host, is issued as a URI with the host e.x; `/%2F y` gives a certificate that cannot be read.",
 "C109": "scheme://host/path of plain characters is accepted with these parts and written as it was read (C109_plain_partial). Empty, relative and non-ASCII texts are accepted: three negations.",
 "C110": "net.ParseIP accepts exactly the texts of a grammar of IPv4 and IPv6 addresses (C110_address); no constraint that was read is one (C110_read_partial), the accepted ones are characterised (C110_exact_partial). Negations: `.1.2.3.4`, `[::1]` and `z://a` are accepted.",
 "C111": "C111_key gives the private key by a formula from two accepted signatures with the same r; C111_four bounds the number of s; C111_opposite: random bytes for the nonces k and n - k give such a pair.",
 "C112": "Negation: Sum of the secret data, its padding and any suffix is a function (extendDigest) of Sum of the secret data, its length and the suffix, so Sum(key || message) does not authenticate. This is a property of SM3; HMAC over the sm3 object (C99) is not concerned.",
 "C113": "The loops are modelled on memory (Sm4/Modes.lean), with crypto/cipher's CBC of Go 1.12 and its own buffers; errors and panics are those of C09, outputs those of C10 and C11.",
 "C114": "big.Int memory modelled in EC/Store.lean and Sm2/Store.lean (math/big and crypto/elliptic statement by statement); C114_lifecycle joins it with C34 and C35. Calls that end in an error or a panic are included.",
 "C115": "Violated: the curve is copied as a struct of pointers. C115_shared_violated: after GetSm2P256V1().N.SetInt64(0) every verification under every key returns false. What holds: the numbers D, X and Y of a key are its own; whatever is assigned to those of a key that was generated, read or calculated, the curve and all keys that were there before are unaffected (C115_pair_partial, C115_public_partial, C115_private_partial).",
 "C116": "Violated: the sequence of doublings and additions is a function of the scalar from which the scalar is computed (C116_reveals_violated), so the operations of one signature give the private key (C116_key_violated) and those of Decrypt give it at once; the numbers of operations are eight doublings per byte and one addition per set bit. Operations are counted, their running time is not modelled.",
 "C117": "Violated: no ciphertext of 16 blocks or more is refused; and the last byte of every block of a message is found from the lengths of the answers to 256 questions about that block alone. What holds: the answers depend on that byte and the number of blocks alone (C117_only_partial). There is no authentication in the package, so the first part cannot be repaired by checking the padding; the second could be made harder.",
 "C118": "fmt's %08X is modelled by hand; C118_format shows for every number that reading undoes it.",
 "C119": "Single accesses in Sm4/Conc.lean: bytes of arrays and words of the round-key arrays. Sequential consistency is assumed; C119_no_race is what the Go memory model requires for it. Making the cipher (NewCipher) comes before the goroutines start.",
 "C120": "Violated as the modes are made: C120_ecb_violated shows equal blocks exactly, C120_cbc_violated that equal CBC ciphertext blocks give the xor of the message blocks, C120_same_iv_violated that a reused initialisation vector shows the common leading blocks. What holds: with a uniform initialisation vector every single CBC ciphertext block is uniform, whatever the message (C120_iv_partial), and a uniform message has a uniform ciphertext (C120_message_partial). Secrecy against bounded adversaries is not expressible here.",
 "C121": "Violated: neither tag covers the key length. C121_confirm_violated: sides that ask for different lengths confirm each other with different keys. C121_prefix_violated: the shorter key begins the longer one. With equal lengths the keys agree: for honest sides always (C48_agree), and for two sides that may be wrong about each other whenever one tag is accepted, up to an explicit SM3 collision (C121_confirmed_partial; the x-coordinates of the two shared points must have the same number of bytes).",
 "C122": "C122_results, C122_no_race, C122_ends, C122_complete for all calls of the package. Accesses of single numbers are the steps; that memory is sequentially consistent for programs without data races is the promise of the Go memory model and is assumed. C122_caller_writes: a caller's own goroutine that writes to the shared curve (C115) decides by its timing what a verification answers.",
 "C123": "The code violates it: the curve arithmetic never reads B, so it computes in the group of the curve on which the pair lies (C123_other_curve). C123_period_violated: a scalar counts only modulo the order. C123_encrypt_violated: one of m guesses opens every ciphertext. C123_forgery_violated: signatures under a key of order m are made without a private key. C123_exchange_violated: one of m1·m2 guesses gives the key and both confirmation values, and tells the secret scalar modulo m1. Examples with (2, 0), (5, 0) of order 2 and a point of order 3. Decrypt is not open to this: Unmarshal checks the curve equation (C45).",
 "C124": "Programs on a memory of arrays (Sm2/Buffers.lean), related step by step to the computations on byte strings of the other properties. C124_encrypt, _decrypt, _marshal, _unmarshal, _keys, _sign, _verify, _exchange; C124_later: later writes to the arguments do not reach the result and the other way round; C124_round_trip composes two calls. Numbers are values here (their memory: C114, C122); elliptic.Marshal, asn1.Marshal and Int.Bytes return new arrays, asn1.Unmarshal copies octet strings (assumed).",
 "C125": "Violated: Raw, the signed part, the key info, subject, issuer and (unless its bit string has unused bits) the signature are windows of the buffer, while the public key, the names and the extensions are copies (C125_request_violated, C125_certificate_violated, for every accepted input). So a request with an invalid signature verifies after another one is read into the buffer (C125_verify_violated), and a certificate gets the names of the verified request with the key of the next one (C125_mixed_violated). What holds: C125_read (right after the call), C125_request_partial, C125_certificate_partial (the buffer is left alone), C125_issue (the result of CreateCertificateInfo is safe: only its own Raw is used). That RawContent, RawValue and BitString alias the input is read off Go 1.12's encoding/asn1 (trusted).",
 "C126": "Holds for the outermost builder: the slice is never changed (C126_kept), nor any memory of the caller but the spare capacity of the buffer (C126_caller), and without spare capacity everything is in new memory (C126_fresh). Violated otherwise: two builders on a buffer with spare capacity overwrite each other's results (C126_two_violated); inside a continuation Bytes of the child begins with the zeros kept free for the length, which nobody added (C126_child_violated), and they are replaced when the continuation ends (C126_child_changes_violated; a content of 128 octets or more is moved as well).",
 "C127": "The readers on slices and variables agree with the byte-list model (C127_bytes, C127_prefixed, C127_asn1, C127_bits, C127_optional, C127_octets), so slicing up to the capacity never over-reads; no program of reads panics and every variable stays a window of a buffer it started with (C127_windows); s.ReadASN1(&s) works (C127_self); stores inside what was read and inside what remains do not meet (C127_disjoint); CopyBytes copies (C127_copy). Violated: the capacity of what was read reaches over what remains, so append to it overwrites the rest with any chosen bytes (C127_append_violated); ReadASN1 and ReadASN1Element that fail on the tag store the content of the wrong element in the output (C127_failed_violated; ReadBytes and the length-prefixed readers do not, C127_failed).",
 "C128": "C128_certificate and C128_request give the whole layout; C128_extensions the contents of the ten extensions; C128_requested the extension request of a template without own attributes, in which no extension is critical (the flag of the template is dropped). The layout is in Verif.Spec.Wire with literal octets for the object identifiers of the standards, not in terms of the encoder.",
 "C129": "C129_renewed: all fields are kept (addresses in the form of the standard, host bits of ranges cleared); C129_settled: a second renewal changes nothing of them. C129_others_violated: extensions that the fields do not stand for are lost, critical ones too, so a certificate with name constraints on directory names only is renewed without name constraints, and UnhandledCriticalExtensions becomes empty; the criticality of extended key usage and others is not kept. C129_extensions: a renewed certificate that is renewed again by the same CA has the same extensions octet for octet.",
 "C130": "C130_ctr, C130_ofb, C130_cfb: conformance and independence of the division; C130_inverse: round trips; C130_sizes: panics for wrong sizes; C130_value: Encrypt on values is Encrypt on memory (overlaps included). crypto/cipher of Go 1.12 is transcribed.",
 "C131": "Proved for names, key identifiers and signatures, for chains of any length (C131_link, C131_chain). Violated for the rest: of the parent only the name and the key identifier are looked at (C131_parent_violated, C131_ca_violated); without a key identifier in the parent the template's is kept (C131_akid_violated).",
 "C132": "Proved, with the collision given explicitly. The order of the curve is prime, so keys are compared modulo n; keys that are equal modulo n decrypt alike (C132_same_key).",
 "C133": "Holds for ReadASN1Integer (C133_integer_panics, C133_integer_reads) and for ReadOptionalASN1Integer if the default value has the type of the variable (C133_optional_partial). Violated otherwise: the default value is only looked at if the element is absent, so a constant of type int as the default of an int64 variable works until an input without the element comes (C133_constant_violated); the exact condition is C133_optional_panics_violated.",
 "C134": "Holds (C134_first_error_partial, an equivalence) for programs that do not panic, make no calls on ancestors and assign an error only to a builder that cannot carry one yet; C134_calm_methods says which methods are of this kind. Violated otherwise: AddValue and AddASN1GeneralizedTime replace an earlier error (C134_addValue_violated), a child's error replaces the one reported on its parent (C134_ancestor_violated), and the error of a BuildError panic is lost when the content written before it is too long (C134_buildError_violated).",
 "C135": "The number of lookups is constant (C135_count_partial; the functions with the lookups written down compute what the cipher computes, C135_refines). The addresses are not: the lookups of any four consecutive rounds of the key schedule determine the key (C135_schedule_violated), those of the first four rounds of a block known to the observer determine the key (C135_encrypt_violated, C135_decrypt_violated), and with a known key those of any four consecutive rounds determine the block (C135_block_violated).",
 "C136": "C136_slide, C136_mask, C136_dual. C136_rounds shows that the rounds by themselves do have the rule with the mask, so that C136_mask is due to the key schedule.",
 "C137": "C137_permutation, C137_fixed, C137_expansion; an edit that drops or repeats a register or a word breaks them.",
 "C138": "C138_message, C138_front, C138_total, C138_endless (repeating a part that may be empty does not end, so that condition is needed). Booleans are left out of the formats because they do not round-trip (C25), big integers because -1 makes the Builder panic (C23).",
 "C139": "Violated: C139_repeated_violated (repetition is never an error), C139_ca_violated (a certificate that says first that it is not a CA's and then that it is one is accepted as a CA's). What holds instead: each extension is accepted or refused on its own; of repeated ones the last counts for key usage, basic constraints, names, name constraints, key identifiers and policies (C139_last_partial), while extended key usages, CRL distribution points, OCSP servers, issuers' URLs and unhandled critical identifiers are collected from all of them (C139_all_partial).",
 "C140": "Proved: C140_apart, C140_either, C140_issued. The last part is violated: the RawSubject of a template is written without looking at it, so a created request can be an accepted version 1 certificate with the requester's key, any issuer, subject and validity, and a valid signature by the requester's key (C140_raw_violated); such a request is itself not accepted as a request (C140_either).",
 "C141": "C141_second shows that the binding of the key rests on the hash alone: for every accepted pair there is a second key for which verification differs in nothing but the digest.",
 "C142": "What holds: every extension of the request comes from the first value of an extensionRequest attribute, attribute after attribute (C142_wire), and the list in the first value of each well-formed attribute is taken in full (C142_asked_partial); the names are those of the last SAN extension, the earlier ones being checked only (C142_names_partial). Violated: a second value is ignored, an attribute with an empty or missing SET is passed over without an error, and of two SAN extensions only the second gives names.",
 "C143": "C143_exact is an equivalence between what the function returns and a grammar over octets; C143_accepts says that everything else is an error (not a panic); C143_unique says that the grammar is unambiguous.",
 "C144": "C144_exact is an equivalence between what the function returns and a grammar over octets that fixes every field of the result; C144_extension and C144_readable are the same for a single extension; C144_accepts says which words are accepted, C144_rejects that all else is an error, C144_unique that the grammar is unambiguous.",
 "C145": "C145_seven, C145_eight, C145_block on the indices that processBlock looks up (the function of C135), C145_transform, C145_sbox. The tables behind them are checked as a whole: 255 · 256 pairs of bytes for the S-box, 2 · 255 · 255 sums of two columns for the linear transform. Key schedule: C145_key_transform, C145_key_seven, C145_key_ten, C145_key for the indices that expandKey looks up under two keys; its linear transform has branch number four, not five.",
 "C146": "True at the return (C146_return, C146_read), and as long as nobody writes to the serial number, the raw names, the extra extensions and the key of the arguments (C146_kept_partial). Violated for every template: these fields are those of the arguments at any time (C146_follows_violated), Raw is not; C146_violated has a template whose serial number is increased after the call. What is signed and issued does not change in any case (C146_signed).",
 "C147": "Violated: the element reader converts the length to int and checks only that converting back gives the same, so a length of 2^31 or more becomes negative and the slice expression panics. C147_reads says exactly for which inputs the reader panics; C147_constraints_violated and C147_certificate_violated put such an element in an extension, C147_violated has a whole certificate. C147_partial: apart from the panic in place of an error nothing differs, and everything accepted on one kind of platform is accepted on the other. Version and MaxPathLen are modelled as 64-bit numbers on both.",
 "C148": "accepted_iff says, for a ciphertext whose first 65 bytes encode a point, what Decrypt accepts in each layout and what it returns. The condition of a coincidence cannot be removed: whether such ciphertexts exist is a question about SM3. C148_repeats: a text that can be exchanged with its tag repeats itself every 32 bytes.",
 "C149": "Violated: every ciphertext of Encrypt has one DER form for each place at which the first octet string may end, each with arbitrary bytes behind it (C149_violated), and negated coordinates are read as the coordinates (C149_sign_violated). C149_forms_partial says exactly which byte strings are read as a given ciphertext. C149_canonical_partial: with coordinates that are not negative, a hash of 32 bytes and nothing behind the fields, the form is MarshalCipher's. C149_layout_free: the layout passed to UnmarshalCipher has no effect.",
 "C150": "C150_certificate, C150_total, C150_request, C150_attributes. Counted are octets, plus two to five for each entry of a list. The sizes of the URL objects are not counted. The field Attributes repeats octets of the attributes of a request and has its own bound.",
 "C151": "Holds for messages that are not empty, messages below 2^31 bytes and identities below 2^31+2 bytes (C151_decides_partial, C151_bytes_partial). C151_exact and C151_sign_exact: exactly when verifying and signing panic. Violated by the empty message: C151_empty_violated gives one signature of eight octets for which Verify panics under every key.",
 "C152": "C152_exact_partial: octet by octet which attributes are kept and as what; C152_count_partial: none is invented. Violated: attributes whose value is a string are dropped without an error, for all types and strings (C152_string_violated), as the challenge password of an accepted request (C152_password_violated); of a critical extension that is asked for, the value is lost (C152_critical_violated).",
 "C153": "C153_again_partial: for all requests that the library makes from templates as in C59 whose attributes can be encoded; nothing is asked for twice, the template is not changed, and with the same key the signed part is equal octet by octet. Violated for requests made elsewhere: if a pair in Attributes has lost its value, no request can be made at all (C153_nil_violated), as for an accepted request that asks for critical extensions (C153_critical_violated); string attributes are lost when they are parsed (C152).",
 "C154": "C154_integer, C154_octets, C154_bits, C154_sequence, C154_element (tag numbers below 31), C154_signature and C154_ciphertext: agreement in both directions, with the same value and rest. C154_oid_partial: cryptobyte reads exactly those identifiers encoding/asn1 reads whose numbers take at most four septets. Violated: an identifier with a number from 2^28 on (C154_oid_violated), every BOOLEAN (C154_boolean_violated, the reader asks for tag INTEGER), every element with a tag number from 31 on (C154_high_tag_violated).",
 "C155": "C155_integer_partial and C155_signature_partial (every integer but -1), C155_octets, C155_bits, C155_boolean, C155_ciphertext (both orders of the fields), C155_oid_partial (no negative component; the same identifiers are refused, and where the first two numbers overflow both write the same wrong octets). Violated: the builder panics at -1, which encoding/asn1 writes (C155_minus_one_violated); a negative component is left out by encoding/asn1 without an error and reported by the builder (C155_oid_violated).",
 "C156": "C156_ecb, C156_cbc_encrypt, C156_cbc_decrypt: for two pieces, hence by repetition for any number; C156_cbc_piece: random access to an encrypted message.",
 "C20": "C20_tags, C20_tag_constants: the tag constants and the functions Constructed and ContextSpecific give the identifier octets of X.690. C20_readASN1_iff, C20_readASN1Element_iff, C20_skipASN1_iff, C20_peek: the readers that are given a tag, exactly.",
 "C21": "C21_null: AddASN1NULL writes 05 00.",
 "C22": "C22_octets, C22_enum_tag: the tags of INTEGER and ENUMERATED as octets, not only that writer and reader agree.",
 "C157": "C157_ecb, C157_cbc, C157_cbc_same_iv, C157_cbc_injective: exactly the equalities that an observer can see. No claim is made about what else could be computed from a ciphertext.",
 "C158": "C158_signature: exact length and bounds; C158_ciphertext: exact length of the raw form, bounds for the DER form.",
 "C159": "The code has no integrity check. C159_differ_partial: different ciphertexts give different messages under one key and IV. C159_iv_violated: bits changed in the IV are changed in the first block, and nothing else is. C159_block_violated: bits changed in a block of a CBC ciphertext are changed in the next block of the message, the block itself becomes another one, and nothing else changes. C159_exchange_violated: exchanging parts of an ECB ciphertext exchanges the parts of the message.",
 "C17": "C17_written, C17_values, C17_short: the octets that are written and what is read from octets, most significant first; C17_first: Skip, ReadBytes and CopyBytes exactly.",
 "C160": "Signatures take nil for 1234567812345678 (C40), the key exchange for the empty identity. C160_empty_partial: in the exchange nil means the empty identity, in both roles and for both sides. C160_refused_violated: in an undisturbed exchange an initiator that names the responder by the default identity does not accept the tag of a responder with nil, or one of three explicit pairs is a collision of SM3. C160_key_violated: a concrete exchange where the keys differ and the tag is refused."
}