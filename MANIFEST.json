{
 "claims": [
  {
   "property": "C01",
   "status": "proved",
   "theorems": [
    "Verif.Props.C01_write_sum_conforms",
    "Verif.Props.C01_sum_conforms",
    "Verif.Props.C01_hash_length"
   ],
   "note": "Full conformance to an independent transcription of GM/T 0004-2012 for every list of non-empty chunks below 2^31 bytes."
  },
  {
   "property": "C02",
   "status": "proved",
   "theorems": [
    "Verif.Props.C02_chunking"
   ],
   "note": ""
  },
  {
   "property": "C03",
   "status": "proved",
   "theorems": [
    "Verif.Props.C03_reset",
    "Verif.Props.C03_reset_any"
   ],
   "note": ""
  },
  {
   "property": "C04",
   "status": "partial",
   "theorems": [
    "Verif.Props.C04_sum_partial",
    "Verif.Props.C04_sum_unchanged_violated",
    "Verif.Props.C04_state_after_sum",
    "Verif.Props.C04_history",
    "Verif.Props.C04_second_sum",
    "Verif.Props.C04_repeat_violated"
   ],
   "note": "Sum returns prefix and digest; it changes the state (pointer copy in sm3.go:42), negation proved with a concrete history and, up to an explicit collision of the compression function, for every history (C04_repeat_violated). C04_history: a small description (bytes taken in, bytes counted) gives exactly what every history of Write, Sum and Reset returns."
  },
  {
   "property": "C05",
   "status": "partial",
   "theorems": [
    "Verif.Props.C05_write_exact",
    "Verif.Props.C05_write_accepts_partial",
    "Verif.Props.C05_write_empty_violated",
    "Verif.Props.C05_write_long_violated",
    "Verif.Props.C05_capacity",
    "Verif.Props.C05_slice_reaches"
   ],
   "note": "Exact panic condition proved for every reachable state; empty slices and slices of 2^31 bytes or more panic (sm3.go:89, 108, 219). Write is independent of the capacity of its argument."
  },
  {
   "property": "C06",
   "status": "proved",
   "theorems": [
    "Verif.Props.C06_block_inverse",
    "Verif.Props.C06_permutation"
   ],
   "note": ""
  },
  {
   "property": "C07",
   "status": "proved",
   "theorems": [
    "Verif.Props.C07_block_conforms"
   ],
   "note": ""
  },
  {
   "property": "C08",
   "status": "proved",
   "theorems": [
    "Verif.Props.C08_encrypt_overlap",
    "Verif.Props.C08_decrypt_overlap"
   ],
   "note": ""
  },
  {
   "property": "C09",
   "status": "proved",
   "theorems": [
    "Verif.Props.C09_newCipher",
    "Verif.Props.C09_errors",
    "Verif.Props.C09_block_panics",
    "Verif.Props.C09_ecb_sizes",
    "Verif.Props.C09_cbc_sizes"
   ],
   "note": ""
  },
  {
   "property": "C10",
   "status": "proved",
   "theorems": [
    "Verif.Props.C10_ecb_blocks",
    "Verif.Props.C10_ecb_roundtrip"
   ],
   "note": ""
  },
  {
   "property": "C11",
   "status": "proved",
   "theorems": [
    "Verif.Props.C11_cbc_encrypt_conforms",
    "Verif.Props.C11_cbc_decrypt_conforms",
    "Verif.Props.C11_cbc_roundtrip",
    "Verif.Props.C11_cbc_locality"
   ],
   "note": ""
  },
  {
   "property": "C12",
   "status": "partial",
   "theorems": [
    "Verif.Props.C12_pkcs5_layout",
    "Verif.Props.C12_pkcs5_accepts_iff",
    "Verif.Props.C12_pkcs5_roundtrip_iff",
    "Verif.Props.C12_pkcs5_roundtrip_partial",
    "Verif.Props.C12_pkcs5_roundtrip_violated"
   ],
   "note": "Round-trip holds iff the pad count fits a byte; proved as an iff. Fails for block sizes above 255 (byte truncation), negation proved."
  },
  {
   "property": "C13",
   "status": "proved",
   "theorems": [
    "Verif.Props.C13_zero_roundtrip",
    "Verif.Props.C13_zero_refuses",
    "Verif.Props.C13_unzero_exact"
   ],
   "note": ""
  },
  {
   "property": "C14",
   "status": "proved",
   "theorems": [
    "Verif.Props.C14_pad_crypt_unpad"
   ],
   "note": ""
  },
  {
   "property": "C15",
   "status": "partial",
   "theorems": [
    "Verif.Props.C15_unpad_valid_partial",
    "Verif.Props.C15_unpad_exact",
    "Verif.Props.C15_unpad_rejects_violated"
   ],
   "note": "No malformed input is rejected with an error: exact behaviour proved, negation with witnesses."
  },
  {
   "property": "C16",
   "status": "partial",
   "theorems": [
    "Verif.Props.C16_heap_model_agrees",
    "Verif.Props.C16_caller_unchanged_partial",
    "Verif.Props.C16_damage_bound",
    "Verif.Props.C16_caller_unchanged_violated"
   ],
   "note": "Holds when the spare capacity is smaller than the padding; otherwise append writes into the caller's array: extent of the damage proved, negation with a witness."
  },
  {
   "property": "C17",
   "status": "proved",
   "theorems": [
    "Verif.Props.C17_written",
    "Verif.Props.C17_values",
    "Verif.Props.C17_short",
    "Verif.Props.C17_first",
    "Verif.Props.C17_uint8",
    "Verif.Props.C17_uint16",
    "Verif.Props.C17_uint24",
    "Verif.Props.C17_uint32",
    "Verif.Props.C17_bytes",
    "Verif.Props.C17_copyBytes"
   ],
   "note": "C17_written, C17_values, C17_short: the octets that are written and what is read from octets, most significant first; C17_first: Skip, ReadBytes and CopyBytes exactly."
  },
  {
   "property": "C18",
   "status": "proved",
   "theorems": [
    "Verif.Props.C18_uint8_prefix",
    "Verif.Props.C18_uint16_prefix",
    "Verif.Props.C18_uint24_prefix",
    "Verif.Props.C18_uint32_prefix",
    "Verif.Props.C18_too_long"
   ],
   "note": ""
  },
  {
   "property": "C19",
   "status": "proved",
   "theorems": [
    "Verif.Props.C19_skip",
    "Verif.Props.C19_readUint8",
    "Verif.Props.C19_readUint16",
    "Verif.Props.C19_readUint24",
    "Verif.Props.C19_readUint32",
    "Verif.Props.C19_readUint8LengthPrefixed",
    "Verif.Props.C19_readUint16LengthPrefixed",
    "Verif.Props.C19_readUint24LengthPrefixed",
    "Verif.Props.C19_readBytes",
    "Verif.Props.C19_copyBytes",
    "Verif.Props.C19_readAnyASN1",
    "Verif.Props.C19_readAnyASN1Element",
    "Verif.Props.C19_readASN1",
    "Verif.Props.C19_readASN1Element",
    "Verif.Props.C19_readASN1Bytes",
    "Verif.Props.C19_skipASN1",
    "Verif.Props.C19_peekASN1Tag",
    "Verif.Props.C19_readASN1Boolean",
    "Verif.Props.C19_readASN1BigInt",
    "Verif.Props.C19_readASN1Int64",
    "Verif.Props.C19_readASN1Uint64",
    "Verif.Props.C19_readASN1IntegerSigned",
    "Verif.Props.C19_readASN1IntegerUnsigned",
    "Verif.Props.C19_readASN1Enum",
    "Verif.Props.C19_readASN1ObjectIdentifier",
    "Verif.Props.C19_readASN1BitString",
    "Verif.Props.C19_readASN1BitStringAsBytes",
    "Verif.Props.C19_readOptionalASN1",
    "Verif.Props.C19_skipOptionalASN1",
    "Verif.Props.C19_readOptionalASN1Integer",
    "Verif.Props.C19_readOptionalASN1OctetString",
    "Verif.Props.C19_readOptionalASN1Boolean"
   ],
   "note": ""
  },
  {
   "property": "C20",
   "status": "proved",
   "theorems": [
    "Verif.Props.C20_readAnyASN1_iff",
    "Verif.Props.C20_readAnyASN1Element_iff",
    "Verif.Props.C20_refuses",
    "Verif.Props.C20_element_unique",
    "Verif.Props.C20_readASN1_iff",
    "Verif.Props.C20_readASN1Element_iff",
    "Verif.Props.C20_skipASN1_iff",
    "Verif.Props.C20_peek",
    "Verif.Props.C20_tags",
    "Verif.Props.C20_tag_constants"
   ],
   "note": "C20_tags, C20_tag_constants: the tag constants and the functions Constructed and ContextSpecific give the identifier octets of X.690. C20_readASN1_iff, C20_readASN1Element_iff, C20_skipASN1_iff, C20_peek: the readers that are given a tag, exactly."
  },
  {
   "property": "C21",
   "status": "proved",
   "theorems": [
    "Verif.Props.C21_add_read",
    "Verif.Props.C21_add_readAny",
    "Verif.Props.C21_read_add",
    "Verif.Props.C21_refused",
    "Verif.Props.C21_null"
   ],
   "note": "C21_null: AddASN1NULL writes 05 00."
  },
  {
   "property": "C22",
   "status": "proved",
   "theorems": [
    "Verif.Props.C22_int64",
    "Verif.Props.C22_enum",
    "Verif.Props.C22_uint64",
    "Verif.Props.C22_int64_accepts_iff",
    "Verif.Props.C22_uint64_accepts_iff",
    "Verif.Props.C22_enum_accepts_iff",
    "Verif.Props.C22_int64_canonical",
    "Verif.Props.C22_enum_canonical",
    "Verif.Props.C22_uint64_canonical",
    "Verif.Props.C22_signed_width_iff",
    "Verif.Props.C22_unsigned_width_iff",
    "Verif.Props.C22_octets",
    "Verif.Props.C22_enum_tag"
   ],
   "note": "C22_octets, C22_enum_tag: the tags of INTEGER and ENUMERATED as octets, not only that writer and reader agree."
  },
  {
   "property": "C23",
   "status": "partial",
   "theorems": [
    "Verif.Props.C23_bigInt_partial",
    "Verif.Props.C23_bigInt_der_partial",
    "Verif.Props.C23_bigInt_violated"
   ],
   "note": "Holds for every integer except -1 (AddASN1BigInt(-1) panics, asn1.go:74); negation proved in every context."
  },
  {
   "property": "C24",
   "status": "partial",
   "theorems": [
    "Verif.Props.C24_invalid_reported",
    "Verif.Props.C24_builder_der_partial",
    "Verif.Props.C24_round_trip_partial",
    "Verif.Props.C24_reader_accepts_partial",
    "Verif.Props.C24_unique_partial",
    "Verif.Props.C24_large_component_violated",
    "Verif.Props.C24_overflow_violated",
    "Verif.Props.C24_unique_violated"
   ],
   "note": "Builder output is DER and invalid OIDs are reported; round-trip for subidentifiers below 2^28; exact reader language proved. Negations: reader refuses components from 2^28, builder overflows for second component near 2^63, reader accepts non-minimal groups."
  },
  {
   "property": "C25",
   "status": "partial",
   "theorems": [
    "Verif.Props.C25_boolean_violated",
    "Verif.Props.C25_optional_violated",
    "Verif.Props.C25_optional_default_partial",
    "Verif.Props.C25_reader_accepts_partial",
    "Verif.Props.C25_writer_partial"
   ],
   "note": "The readers are wrong: ReadASN1Boolean expects an INTEGER tag and ReadOptionalASN1Boolean reads from the outer string; negations with witnesses, exact reader behaviour, writer conforms."
  },
  {
   "property": "C26",
   "status": "proved",
   "theorems": [
    "Verif.Props.C26_readBitString_iff",
    "Verif.Props.C26_readBitStringAsBytes_iff",
    "Verif.Props.C26_octetString",
    "Verif.Props.C26_bitString",
    "Verif.Props.C26_bitStringAsBytes"
   ],
   "note": ""
  },
  {
   "property": "C27",
   "status": "proved",
   "theorems": [
    "Verif.Props.C27_absent",
    "Verif.Props.C27_present",
    "Verif.Props.C27_skip_present",
    "Verif.Props.C27_integer_present",
    "Verif.Props.C27_octetString_present"
   ],
   "note": ""
  },
  {
   "property": "C28",
   "status": "proved",
   "theorems": [
    "Verif.Props.C28_builder_iff",
    "Verif.Props.C28_additions",
    "Verif.Props.C28_unique"
   ],
   "note": ""
  },
  {
   "property": "C29",
   "status": "proved",
   "theorems": [
    "Verif.Props.C29_error_no_bytes",
    "Verif.Props.C29_error_reported",
    "Verif.Props.C29_sticky",
    "Verif.Props.C29_buildError_contained",
    "Verif.Props.C29_panic_escapes"
   ],
   "note": ""
  },
  {
   "property": "C30",
   "status": "partial",
   "theorems": [
    "Verif.Props.C30_flat_partial",
    "Verif.Props.C30_memory_safe",
    "Verif.Props.C30_child_lost_violated",
    "Verif.Props.C30_overflow_panics_violated",
    "Verif.Props.C30_returns_partial",
    "Verif.Props.C30_exact_violated"
   ],
   "note": "Memory safety for all programs. C30_returns_partial says for every program of additions and continuations exactly when a fixed-size builder returns bytes and which: what is left when the content of every continuation is dropped. C30_exact_violated: whenever the bytes of the growing builder fit, the fixed one returns without an error, and with those bytes exactly when no continuation adds anything (builder.go:271). Panics when a prefix does not fit (C30_overflow_panics_violated)."
  },
  {
   "property": "C31",
   "status": "proved",
   "theorems": [
    "Verif.Props.C31_write_to_ancestor_panics",
    "Verif.Props.C31_no_corruption"
   ],
   "note": "A write to an ancestor without error panics; to one with an error it is ignored and the error is reported, so output is never corrupted (C31_no_corruption)."
  },
  {
   "property": "C32",
   "status": "proved",
   "theorems": [
    "Verif.Props.C32_private_round_trip",
    "Verif.Props.C32_public_round_trip",
    "Verif.Props.C32_private_bytes",
    "Verif.Props.C32_public_bytes"
   ],
   "note": ""
  },
  {
   "property": "C33",
   "status": "partial",
   "theorems": [
    "Verif.Props.C33_length_partial",
    "Verif.Props.C33_public_violated",
    "Verif.Props.C33_private_violated"
   ],
   "note": "The length check is exact; points outside the curve, the zero private key and private keys of n or more are accepted (negations with witnesses)."
  },
  {
   "property": "C34",
   "status": "proved",
   "theorems": [
    "Verif.Props.C34_consistent",
    "Verif.Props.C34_public_is_dG",
    "Verif.Props.C34_returns"
   ],
   "note": ""
  },
  {
   "property": "C35",
   "status": "proved",
   "theorems": [
    "Verif.Props.C35_verifies",
    "Verif.Props.C35_der_verifies"
   ],
   "note": ""
  },
  {
   "property": "C36",
   "status": "proved",
   "theorems": [
    "Verif.Props.C36_exact",
    "Verif.Props.C36_sound",
    "Verif.Props.C36_range",
    "Verif.Props.C36_empty_message_panics"
   ],
   "note": ""
  },
  {
   "property": "C37",
   "status": "proved",
   "theorems": [
    "Verif.Props.C37_range",
    "Verif.Props.C37_standard"
   ],
   "note": ""
  },
  {
   "property": "C38",
   "status": "proved",
   "theorems": [
    "Verif.Props.C38_round_trip",
    "Verif.Props.C38_der"
   ],
   "note": ""
  },
  {
   "property": "C39",
   "status": "partial",
   "theorems": [
    "Verif.Props.C39_accepted_partial",
    "Verif.Props.C39_shortest_partial",
    "Verif.Props.C39_trailing_violated"
   ],
   "note": "Exact accepted language proved; the code ignores trailing bytes inside and after the SEQUENCE (encoding/asn1 returns the rest and sm2.go:479 drops it), negation with a witness."
  },
  {
   "property": "C40",
   "status": "proved",
   "theorems": [
    "Verif.Props.C40_nil_is_default",
    "Verif.Props.C40_injective",
    "Verif.Props.C40_standard"
   ],
   "note": ""
  },
  {
   "property": "C41",
   "status": "partial",
   "theorems": [
    "Verif.Props.C41_returns_partial",
    "Verif.Props.C41_usable_nonce_partial",
    "Verif.Props.C41_terminates_partial",
    "Verif.Props.C41_violated",
    "Verif.Props.C41_half_partial",
    "Verif.Props.C41_halves_partial",
    "Verif.Props.C41_probability_one_partial"
   ],
   "note": "Decided for every private key that RawBytesToPrivateKey returns (C41_probability_one_partial): over uniformly random reads the probability that Sign has not returned after m reads tends to 0 for every key but n-1, and is 1 for n-1. At least (n-5)/2 of the n-1 nonces end in a signature for keys that are not 0, 1 or -1 modulo n (C41_half_partial, C41_halves_partial). Violated for the key n-1: every nonce gives s = 0 and the loop never ends (C41_violated). Bounds: ids and messages below 2^31 bytes, non-empty message (Write of an empty slice panics)."
  },
  {
   "property": "C42",
   "status": "proved",
   "theorems": [
    "Verif.Props.C42_round_trip"
   ],
   "note": ""
  },
  {
   "property": "C43",
   "status": "proved",
   "theorems": [
    "Verif.Props.C43_standard"
   ],
   "note": ""
  },
  {
   "property": "C44",
   "status": "partial",
   "theorems": [
    "Verif.Props.C44_returns_partial",
    "Verif.Props.C44_empty_violated"
   ],
   "note": "Returns as soon as a nonce with a non-zero key stream is delivered; the empty message never terminates (negation for every key and tape)."
  },
  {
   "property": "C45",
   "status": "proved",
   "theorems": [
    "Verif.Props.C45_exact",
    "Verif.Props.C45_changed_tag"
   ],
   "note": ""
  },
  {
   "property": "C46",
   "status": "partial",
   "theorems": [
    "Verif.Props.C46_capacity",
    "Verif.Props.C46_slice_reaches",
    "Verif.Props.C46_panics_violated",
    "Verif.Props.C46_returns_partial"
   ],
   "note": "Exact panic set proved (short input, bad point, empty C2); otherwise a message or an error. Independent of the capacity of the input slice and of the bytes behind it."
  },
  {
   "property": "C47",
   "status": "proved",
   "theorems": [
    "Verif.Props.C47_round_trip",
    "Verif.Props.C47_decrypt_after"
   ],
   "note": ""
  },
  {
   "property": "C48",
   "status": "proved",
   "theorems": [
    "Verif.Props.C48_agree",
    "Verif.Props.C48_responder_returns"
   ],
   "note": "Agreement for all private keys, ids and key lengths for which the responder returns; the responder returns for all valid keys up to 128 bits unless an x-coordinate is zero (C48_responder_returns)."
  },
  {
   "property": "C49",
   "status": "proved",
   "theorems": [
    "Verif.Props.C49_no_tag",
    "Verif.Props.C49_tag",
    "Verif.Props.C49_other_tag",
    "Verif.Props.C49_confirm"
   ],
   "note": ""
  },
  {
   "property": "C50",
   "status": "partial",
   "theorems": [
    "Verif.Props.C50_responder_partial",
    "Verif.Props.C50_initiator_partial",
    "Verif.Props.C50_long_violated",
    "Verif.Props.C50_leading_zero_violated"
   ],
   "note": "Length and standard value proved up to 128 bits without leading zero bytes; negations: more than 128 bits always panics (BlockSize is 16, no loop), a concrete exchange with a leading zero byte gives a key different from the standard's."
  },
  {
   "property": "C51",
   "status": "partial",
   "theorems": [
    "Verif.Props.C51_exact",
    "Verif.Props.C51_domain_partial",
    "Verif.Props.C51_leading_dot_violated"
   ],
   "note": "Exact acceptance condition and returned labels proved for every byte string; the stated one holds for names without leading dot (and non-empty); negation: names with a leading dot, and the empty name, are accepted."
  },
  {
   "property": "C52",
   "status": "proved",
   "theorems": [
    "Verif.Props.C52_mask"
   ],
   "note": ""
  },
  {
   "property": "C53",
   "status": "proved",
   "theorems": [
    "Verif.Props.C53_roundtrip",
    "Verif.Props.C53_encoding",
    "Verif.Props.C53_flags_unique",
    "Verif.Props.C53_parse"
   ],
   "note": ""
  },
  {
   "property": "C54",
   "status": "proved",
   "theorems": [
    "Verif.Props.C54_table",
    "Verif.Props.C54_inverse",
    "Verif.Props.C54_known",
    "Verif.Props.C54_roundtrip",
    "Verif.Props.C54_split",
    "Verif.Props.C54_panics_iff"
   ],
   "note": ""
  },
  {
   "property": "C55",
   "status": "proved",
   "theorems": [
    "Verif.Props.C55_roundtrip",
    "Verif.Props.C55_exact",
    "Verif.Props.C55_encoding",
    "Verif.Props.C55_wire_unique"
   ],
   "note": ""
  },
  {
   "property": "C56",
   "status": "partial",
   "theorems": [
    "Verif.Props.C56_net_unique",
    "Verif.Props.C56_net_same",
    "Verif.Props.C56_create_returns",
    "Verif.Props.C56_encoding",
    "Verif.Props.C56_parse",
    "Verif.Props.C56_roundtrip",
    "Verif.Props.C56_exact",
    "Verif.Props.C56_invalid_accepted_violated",
    "Verif.Props.C56_mixed_range_violated",
    "Verif.Props.C56_mask_as_range_violated"
   ],
   "note": "Encoding, round trip and exact acceptance proved, and the exact language of the parser for all byte strings. Negations: '..a' is accepted; a 4-byte address with a 16-byte mask and ill-formed masks do not survive."
  },
  {
   "property": "C57",
   "status": "partial",
   "theorems": [
    "Verif.Props.C57_returns",
    "Verif.Props.C57_exact",
    "Verif.Props.C57_plain",
    "Verif.Props.C57_bad_domain_violated"
   ],
   "note": "Never panics or loops; exact grammar of what is accepted and returned (dot-atom or quoted local part); negation: the domain check also accepts an empty domain and one with a leading dot."
  },
  {
   "property": "C58",
   "status": "proved",
   "theorems": [
    "Verif.Props.C58_extensions",
    "Verif.Props.C58_override"
   ],
   "note": "Exact list of sections in order, for every template; extra extensions verbatim at the end and overriding."
  },
  {
   "property": "C59",
   "status": "partial",
   "theorems": [
    "Verif.Props.C59_created",
    "Verif.Props.C59_names",
    "Verif.Props.C59_subject_violated",
    "Verif.Props.C59_attribute_violated",
    "Verif.Props.C59_address_violated",
    "Verif.Props.C59_exact",
    "Verif.Props.C59_number_violated"
   ],
   "note": "Creation, parsing and verification of a request for every template in range (C59_created), including the names of a SAN (C59_names). C59_exact: for templates without attributes, exactly which created requests can be read. Negations: a RawSubject that is not a name, an attribute value that is not an OCTET STRING, a 5-byte IP address and an extension identifier with a number of 2^31 give requests that are created but not parsed."
  },
  {
   "property": "C60",
   "status": "proved",
   "theorems": [
    "Verif.Props.C60_request",
    "Verif.Props.C60_certificate",
    "Verif.Props.C60_request_rejects",
    "Verif.Props.C60_certificate_rejects",
    "Verif.Props.C60_trailing"
   ],
   "note": ""
  },
  {
   "property": "C61",
   "status": "proved",
   "theorems": [
    "Verif.Props.C61_extension",
    "Verif.Props.C61_unhandled",
    "Verif.Props.C61_wire",
    "Verif.Props.C61_field",
    "Verif.Props.C61_complete"
   ],
   "note": "Understood is defined on the bytes; the list is exact, Extensions are exactly those in the bytes (C61_wire, C61_field, C61_complete)."
  },
  {
   "property": "C62",
   "status": "partial",
   "theorems": [
    "Verif.Props.C62_forgery_violated",
    "Verif.Props.C62_derived_keys_partial"
   ],
   "note": "Public key (0,0) is accepted and every message has a valid signature under it that anyone can make; negation proved. For keys derived from private keys the verification is the standard's."
  },
  {
   "property": "C63",
   "status": "partial",
   "theorems": [
    "Verif.Props.C63_capacity",
    "Verif.Props.C63_marshal_violated",
    "Verif.Props.C63_unmarshal_violated",
    "Verif.Props.C63_unmarshal_partial"
   ],
   "note": "Exact panic sets of both functions, exact language accepted by UnmarshalCipher. MarshalCipher is independent of the capacity of its input."
  },
  {
   "property": "C64",
   "status": "partial",
   "theorems": [
    "Verif.Props.C64_never_refused",
    "Verif.Props.C64_violated"
   ],
   "note": "(0,0) is accepted as a public key and ciphertexts for it are decrypted by the private key 0 (for all messages). C64_never_refused: for every pair of integers Encrypt gives a ciphertext or goes on drawing, there is never an error or panic about the key."
  },
  {
   "property": "C65",
   "status": "partial",
   "theorems": [
    "Verif.Props.C65_tags_partial",
    "Verif.Props.C65_leading_zero_violated",
    "Verif.Props.C65_responder_exact_violated",
    "Verif.Props.C65_initiator_exact_violated"
   ],
   "note": "Holds without leading zero bytes; otherwise it fails for every exchange, up to an explicit SM3 collision (C65_responder_exact_violated, C65_initiator_exact_violated), and for a concrete one without that proviso (Bytes() is not padded)."
  },
  {
   "property": "C66",
   "status": "partial",
   "theorems": [
    "Verif.Props.C66_responder_exact",
    "Verif.Props.C66_initiator_exact",
    "Verif.Props.C66_violated"
   ],
   "note": "Neither key of the other side is checked: negation with (1,1) as ephemeral and (0,0) as static key. C66_responder_exact and C66_initiator_exact: for all keys of at most 32 octets per coordinate there is a result unless a number is zero (then SM3 panics); there is never an error about a key."
  },
  {
   "property": "C67",
   "status": "proved",
   "theorems": [
    "Verif.Props.C67_not_infinity"
   ],
   "note": ""
  },
  {
   "property": "C68",
   "status": "proved",
   "theorems": [
    "Verif.Props.C68_verify",
    "Verif.Props.C68_certificate",
    "Verif.Props.C68_request"
   ],
   "note": ""
  },
  {
   "property": "C69",
   "status": "proved",
   "theorems": [
    "Verif.Props.C69_exact",
    "Verif.Props.C69_shape"
   ],
   "note": ""
  },
  {
   "property": "C70",
   "status": "partial",
   "theorems": [
    "Verif.Props.C70_inner_algorithm_violated",
    "Verif.Props.C70_inner_algorithm_ignored"
   ],
   "note": "Negation with a concrete certificate; and C70_inner_algorithm_ignored: in every accepted certificate the inner algorithm can be replaced by any other, and the result is accepted and read the same."
  },
  {
   "property": "C71",
   "status": "partial",
   "theorems": [
    "Verif.Props.C71_extra_octets_violated",
    "Verif.Props.C71_version_length_violated",
    "Verif.Props.C71_oid_padding_violated",
    "Verif.Props.C71_trailing_octets_ignored"
   ],
   "note": "Negations with concrete certificates and requests (encoding/asn1 accepts all of these); C71_trailing_octets_ignored: to every accepted certificate any octets can be added after the signature."
  },
  {
   "property": "C72",
   "status": "partial",
   "theorems": [
    "Verif.Props.C72_class_violated",
    "Verif.Props.C72_ia5_violated",
    "Verif.Props.C72_exact"
   ],
   "note": "Negations with witnesses: INTEGER, constructed and application-class elements are taken as names; non-ASCII bytes are taken and made. C72_exact: what is enforced instead, for every byte string and every result."
  },
  {
   "property": "C73",
   "status": "partial",
   "theorems": [
    "Verif.Props.C73_minimum_violated",
    "Verif.Props.C73_ignored"
   ],
   "note": "Proved that what follows the base never matters (C73_ignored), negation with witnesses."
  },
  {
   "property": "C74",
   "status": "partial",
   "theorems": [
    "Verif.Props.C74_info_returns",
    "Verif.Props.C74_certificate_returns",
    "Verif.Props.C74_usage_violated"
   ],
   "note": "Returns for every template whose extended key usages are known; an unknown ExtKeyUsage value panics (gmx509.go oidFromExtKeyUsage), negation for every unknown value."
  },
  {
   "property": "C75",
   "status": "proved",
   "theorems": [
    "Verif.Props.C75_utc",
    "Verif.Props.C75_generalized",
    "Verif.Props.C75_written",
    "Verif.Props.C75_roundtrip",
    "Verif.Props.C75_zones",
    "Verif.Props.C75_go_parse"
   ],
   "note": "Exact language of both time types, independent day count for instants."
  },
  {
   "property": "C76",
   "status": "partial",
   "theorems": [
    "Verif.Props.C76_rfc_times",
    "Verif.Props.C76_liberal_violated"
   ],
   "note": "Every RFC time is read correctly (C76_rfc_times); negation: missing seconds, zone offsets and early GeneralizedTime are accepted."
  },
  {
   "property": "C77",
   "status": "partial",
   "theorems": [
    "Verif.Props.C77_hidden_violated",
    "Verif.Props.C77_set_violated",
    "Verif.Props.C77_overlooked_partial"
   ],
   "note": "Holds when the field stands directly after the key and the unique identifiers (C77_overlooked_partial, C61_field); negation: an element before it hides it, and a SET instead of a SEQUENCE is ignored."
  },
  {
   "property": "C78",
   "status": "partial",
   "theorems": [
    "Verif.Props.C78_unchanged_partial",
    "Verif.Props.C78_others_partial",
    "Verif.Props.C78_changed_violated"
   ],
   "note": "The template is unchanged when it holds no extensionRequest attribute or nothing is generated (C78_unchanged_partial), and only that attribute ever changes (C78_others_partial); negation by witness (C78_changed_violated)."
  },
  {
   "property": "C79",
   "status": "partial",
   "theorems": [
    "Verif.Props.C79_kept_partial",
    "Verif.Props.C79_lost_violated"
   ],
   "note": "Negation in general form: no extension of a created and parsed request is critical, whatever the template says (C79_lost_violated). What holds: identifiers and values are kept, and extensions that are not critical are reported as requested (C79_kept_partial)."
  },
  {
   "property": "C80",
   "status": "proved",
   "theorems": [
    "Verif.Props.C80_read",
    "Verif.Props.C80_roundtrip",
    "Verif.Props.C80_request"
   ],
   "note": "Exact reading of every RDN sequence (C80_read), exact round trip including the effect of extra names (C80_roundtrip), subject of created requests (C80_request)."
  },
  {
   "property": "C81",
   "status": "partial",
   "theorems": [
    "Verif.Props.C81_single_partial",
    "Verif.Props.C81_order_violated"
   ],
   "note": "Holds if every field has at most one value (C81_single_partial); negation: country b, a is written in this order (C81_order_violated)."
  },
  {
   "property": "C82",
   "status": "proved",
   "theorems": [
    "Verif.Props.C82_written",
    "Verif.Props.C82_refused"
   ],
   "note": "Exact encoding against an independent specification with RFC 3629 UTF-8 (utf8.Valid proved to accept exactly UTF-8); names below 2^63 bytes."
  },
  {
   "property": "C83",
   "status": "proved",
   "theorems": [
    "Verif.Props.C83_sound",
    "Verif.Props.C83_complete",
    "Verif.Props.C83_exact"
   ],
   "note": "C83_exact: for every byte string, with the elements that encoding/asn1 reads whatever their tag described octet by octet."
  },
  {
   "property": "C84",
   "status": "proved",
   "theorems": [
    "Verif.Props.C84_issued",
    "Verif.Props.C84_fields"
   ],
   "note": "C84_issued and C84_fields, for templates in the stated range (GoodTemplate) and certificates below 2^31 bytes."
  },
  {
   "property": "C85",
   "status": "partial",
   "theorems": [
    "Verif.Props.C85_readable_partial",
    "Verif.Props.C85_mask_violated",
    "Verif.Props.C85_address_violated",
    "Verif.Props.C85_exact",
    "Verif.Props.C85_number_violated"
   ],
   "note": "Holds for the templates of C84 (C85_readable_partial). C85_exact says exactly which issued certificates are read: names that can be read, extra extensions with small numbers that are readable alone, addresses of 4 or 16 bytes, URIs that are parsed again, valid name constraints, and policies and unknown usages with numbers below 2^31 (raw subjects, if given, being one element each). Negations: a mask that is not contiguous, an address of five bytes, a policy number of 2^31."
  },
  {
   "property": "C86",
   "status": "partial",
   "theorems": [
    "Verif.Props.C86_template",
    "Verif.Props.C86_requester_partial",
    "Verif.Props.C86_rawSubject_violated",
    "Verif.Props.C86_attributes_violated"
   ],
   "note": "Key, the nine subject fields and the alternative names are those of the request if the template has no RawSubject (C86_requester_partial); negations in general form: RawSubject wins, other attributes are never copied."
  },
  {
   "property": "C87",
   "status": "partial",
   "theorems": [
    "Verif.Props.C87_names_partial",
    "Verif.Props.C87_dropped_violated"
   ],
   "note": "Negation in general form: no extension outside those generated from the template's fields is ever in the certificate (C87_dropped_violated). What holds: the names in the last SAN extension of the request are those of the certificate (C87_names_partial)."
  },
  {
   "property": "C88",
   "status": "partial",
   "theorems": [
    "Verif.Props.C88_depends_partial",
    "Verif.Props.C88_possession_violated"
   ],
   "note": "Negation by witness, and in general: creation depends on the key info of the request alone (C88_depends_partial)."
  },
  {
   "property": "C89",
   "status": "partial",
   "theorems": [
    "Verif.Props.C89_uniform",
    "Verif.Props.C89_range_violated"
   ],
   "note": "Each scalar below n comes from exactly one 32-byte read (C89_uniform). The range of the standard, 1 to n-2, is violated at both ends: GenerateKey can return the key 0 with the public key (0,0), and n-1, which can never sign (C89_range_violated)."
  },
  {
   "property": "C90",
   "status": "proved",
   "theorems": [
    "Verif.Props.C90_nonce",
    "Verif.Props.C90_uniform"
   ],
   "note": "nextK is the first read in [1, n-1] (C90_nonce), and every nonce belongs to exactly one 32-byte read (C90_uniform)."
  },
  {
   "property": "C91",
   "status": "partial",
   "theorems": [
    "Verif.Props.C91_total",
    "Verif.Props.C91_reader",
    "Verif.Props.C91_reported",
    "Verif.Props.C91_roundtrip_partial",
    "Verif.Props.C91_seconds_violated",
    "Verif.Props.C91_hours_violated",
    "Verif.Props.C91_der_violated"
   ],
   "note": "Reader: exact language (C91_reader) and safety (C91_total). Builder: round trip for zones with offsets in whole minutes below 100 hours, fraction of the second dropped (C91_roundtrip_partial); years outside 0-9999 reported (C91_reported). Violated: offsets with seconds are written without an error and read back as another instant or not at all (C91_seconds_violated); zones other than UTC are written and read with an offset, which DER forbids (C91_der_violated). Offsets of 100 hours and more, which Go's FixedZone permits, are written without an error and cannot be read (C91_hours_violated)."
  },
  {
   "property": "C92",
   "status": "partial",
   "theorems": [
    "Verif.Props.C92_profile_partial",
    "Verif.Props.C92_serial_violated",
    "Verif.Props.C92_validity_violated",
    "Verif.Props.C92_twice_violated",
    "Verif.Props.C92_issuer_violated",
    "Verif.Props.C92_subject_violated",
    "Verif.Props.C92_version_violated"
   ],
   "note": "Holds for templates that meet the demands which are their own affair (C92_profile_partial). Nothing is checked: negations in general form for serial numbers, validity, repeated extensions, empty issuer, empty subject without names; and witnesses for the version, among them one whose number wraps around to -2^63."
  },
  {
   "property": "C93",
   "status": "proved",
   "theorems": [
    "Verif.Props.C93_skip",
    "Verif.Props.C93_readBytes",
    "Verif.Props.C93_copyBytes",
    "Verif.Props.C93_readUint8",
    "Verif.Props.C93_readUint16",
    "Verif.Props.C93_readUint24",
    "Verif.Props.C93_readUint32",
    "Verif.Props.C93_readUint8LengthPrefixed",
    "Verif.Props.C93_readUint16LengthPrefixed",
    "Verif.Props.C93_readUint24LengthPrefixed",
    "Verif.Props.C93_readAnyASN1",
    "Verif.Props.C93_readAnyASN1Element",
    "Verif.Props.C93_readASN1",
    "Verif.Props.C93_readASN1Element",
    "Verif.Props.C93_readASN1Bytes",
    "Verif.Props.C93_skipASN1",
    "Verif.Props.C93_readASN1Boolean",
    "Verif.Props.C93_readASN1BigInt",
    "Verif.Props.C93_readASN1Int64",
    "Verif.Props.C93_readASN1Enum",
    "Verif.Props.C93_readASN1Uint64",
    "Verif.Props.C93_readASN1IntegerSigned",
    "Verif.Props.C93_readASN1IntegerUnsigned",
    "Verif.Props.C93_readASN1ObjectIdentifier",
    "Verif.Props.C93_readASN1BitString",
    "Verif.Props.C93_readASN1BitStringAsBytes",
    "Verif.Props.C93_readASN1GeneralizedTime",
    "Verif.Props.C93_readOptionalASN1",
    "Verif.Props.C93_readOptionalASN1_absent"
   ],
   "note": "All readers, signed and unsigned targets of every width."
  },
  {
   "property": "C94",
   "status": "partial",
   "theorems": [
    "Verif.Props.C94_atomic_partial",
    "Verif.Props.C94_tag_violated",
    "Verif.Props.C94_prefix_violated"
   ],
   "note": "Holds for reads of fixed length and of any element (C94_atomic_partial). Negations in general form: ReadASN1 and ReadASN1Element consume an element with another tag, the length-prefixed readers consume a prefix that is too large."
  },
  {
   "property": "C95",
   "status": "proved",
   "theorems": [
    "Verif.Props.C95_message",
    "Verif.Props.C95_der",
    "Verif.Props.C95_four",
    "Verif.Props.C95_last_key"
   ],
   "note": "For keys on the curve (for the key (0,0) see C62). At most four values of s per key, message and r, except for the key -G."
  },
  {
   "property": "C96",
   "status": "partial",
   "theorems": [
    "Verif.Props.C96_standard_partial",
    "Verif.Props.C96_order_violated",
    "Verif.Props.C96_convert_violated",
    "Verif.Props.C96_point_form_violated"
   ],
   "note": "Layout C1C3C2 gives the standard's form (C96_standard_partial). Negations: C1C2C3 writes hash and message in the other order, for every ciphertext; a DER form cannot be read for the other layout; the byte naming the point form is ignored."
  },
  {
   "property": "C97",
   "status": "proved",
   "theorems": [
    "Verif.Props.C97_unique"
   ],
   "note": "Both layouts, inputs below 2^31 bytes."
  },
  {
   "property": "C98",
   "status": "partial",
   "theorems": [
    "Verif.Props.C98_binding_partial",
    "Verif.Props.C98_reflection_partial",
    "Verif.Props.C98_ambiguous_violated"
   ],
   "note": "Proved for ephemeral keys whose coordinates have no leading zero byte (C98_binding_partial, with explicit candidates for the collision). In general violated: the hash is over unpadded numbers and is ambiguous (C98_ambiguous_violated)."
  },
  {
   "property": "C99",
   "status": "partial",
   "theorems": [
    "Verif.Props.C99_value_partial",
    "Verif.Props.C99_formula_partial",
    "Verif.Props.C99_reset",
    "Verif.Props.C99_standard_violated",
    "Verif.Props.C99_twice_violated"
   ],
   "note": "crypto/hmac of Go 1.12 is transcribed in Sm3/Hmac.lean and is part of the trusted base of this claim only. BlockSize() is 16, so the value is HMAC with B = 16 (C99_value_partial, C99_formula_partial), not HMAC-SM3 (C99_standard_violated); Sum cannot be repeated (C99_twice_violated); Reset is right (C99_reset)."
  },
  {
   "property": "C100",
   "status": "partial",
   "theorems": [
    "Verif.Props.C100_certificate",
    "Verif.Props.C100_request",
    "Verif.Props.C100_verified",
    "Verif.Props.C100_fingerprint_violated",
    "Verif.Props.C100_request_raw_violated"
   ],
   "note": "All fields but Raw and Signature are functions of the signed part (C100_certificate, C100_request). Raw is not: octets can be appended inside the outer SEQUENCE of every certificate (C100_fingerprint_violated), and of every request, which still verifies (C100_request_raw_violated)."
  },
  {
   "property": "C101",
   "status": "partial",
   "theorems": [
    "Verif.Props.C101_natural_partial",
    "Verif.Props.C101_roundtrip_partial",
    "Verif.Props.C101_dropped_violated",
    "Verif.Props.C101_alias_violated",
    "Verif.Props.C101_first_violated",
    "Verif.Props.C101_overflow_violated"
   ],
   "note": "Holds for non-negative components without overflow (C101_natural_partial, C101_roundtrip_partial; these also justify the natural numbers in tyOID). Negations: negative components are silently dropped, so an identifier can turn into that of a key usage. The fault is in encoding/asn1 of Go 1.12; the package passes template identifiers on unchecked."
  },
  {
   "property": "C102",
   "status": "proved",
   "theorems": [
    "Verif.Props.C102_injective",
    "Verif.Props.C102_decryption",
    "Verif.Props.C102_onto"
   ],
   "note": "Both arrays of NewCipher."
  },
  {
   "property": "C103",
   "status": "proved",
   "theorems": [
    "Verif.Props.C103_collision",
    "Verif.Props.C103_running"
   ],
   "note": "Reduction, for messages that the code accepts; no instance of the hypothesis is known, as for any collision resistant function."
  },
  {
   "property": "C104",
   "status": "partial",
   "theorems": [
    "Verif.Props.C104_unique_partial",
    "Verif.Props.C104_generated",
    "Verif.Props.C104_exists",
    "Verif.Props.C104_encodings_violated"
   ],
   "note": "One scalar below n for every point (C104_unique_partial, C104_exists). The raw parser takes scalars of n and more, so small keys have two encodings (C104_encodings_violated)."
  },
  {
   "property": "C105",
   "status": "proved",
   "theorems": [
    "Verif.Props.C105_exact",
    "Verif.Props.C105_der"
   ],
   "note": "Equality of the two sets, for every key but those congruent to -1 modulo n, which sign nothing (C41)."
  },
  {
   "property": "C106",
   "status": "partial",
   "theorems": [
    "Verif.Props.C106_exact_partial",
    "Verif.Props.C106_zero_stream_violated"
   ],
   "note": "The two sets agree except for ciphertexts whose C2 is the message itself (C106_exact_partial). Decrypt does not check for a zero key stream: negation with the nonce 1121 (C106_zero_stream_violated)."
  },
  {
   "property": "C107",
   "status": "partial",
   "theorems": [
    "Verif.Props.C107_sign_violated",
    "Verif.Props.C107_nonce_violated",
    "Verif.Props.C107_related_violated",
    "Verif.Props.C107_encrypt_violated"
   ],
   "note": "Nonces depend on the random source alone, as in the standard: negations in general form. Two different signatures with one nonce, or one signature and its nonce, give the private key by a formula, as do two signatures whose nonces are a known linear function of each other (C107_related_violated); two ciphertexts with one nonce give the xor of the messages."
  },
  {
   "property": "C108",
   "status": "partial",
   "theorems": [
    "Verif.Props.C108_exact_partial",
    "Verif.Props.C108_reissue_partial",
    "Verif.Props.C108_host_violated",
    "Verif.Props.C108_unreadable_violated",
    "Verif.Props.C108_issued_host_violated",
    "Verif.Props.C108_issued_unreadable_violated"
   ],
   "note": "Exact condition: the text of the path had only characters of a path, and the URI is not %2A with a query (C108_exact_partial); then requests and issued certificates have the same URIs (C108_reissue_partial). Otherwise negations: `/%2Fe.x/ y`, read without host, is issued as a URI with the host e.x; `/%2F y` gives a certificate that cannot be read."
  },
  {
   "property": "C109",
   "status": "partial",
   "theorems": [
    "Verif.Props.C109_empty_violated",
    "Verif.Props.C109_relative_violated",
    "Verif.Props.C109_ascii_violated",
    "Verif.Props.C109_plain_partial"
   ],
   "note": "scheme://host/path of plain characters is accepted with these parts and written as it was read (C109_plain_partial). Empty, relative and non-ASCII texts are accepted: three negations."
  },
  {
   "property": "C110",
   "status": "partial",
   "theorems": [
    "Verif.Props.C110_address",
    "Verif.Props.C110_read_partial",
    "Verif.Props.C110_exact_partial",
    "Verif.Props.C110_below_violated",
    "Verif.Props.C110_bracket_violated",
    "Verif.Props.C110_uri_violated"
   ],
   "note": "net.ParseIP accepts exactly the texts of a grammar of IPv4 and IPv6 addresses (C110_address); no constraint that was read is one (C110_read_partial), the accepted ones are characterised (C110_exact_partial). Negations: `.1.2.3.4`, `[::1]` and `z://a` are accepted."
  },
  {
   "property": "C111",
   "status": "proved",
   "theorems": [
    "Verif.Props.C111_key",
    "Verif.Props.C111_four",
    "Verif.Props.C111_opposite"
   ],
   "note": "C111_key gives the private key by a formula from two accepted signatures with the same r; C111_four bounds the number of s; C111_opposite: random bytes for the nonces k and n - k give such a pair."
  },
  {
   "property": "C112",
   "status": "partial",
   "theorems": [
    "Verif.Props.C112_sum_violated"
   ],
   "note": "Negation: Sum of the secret data, its padding and any suffix is a function (extendDigest) of Sum of the secret data, its length and the suffix, so Sum(key || message) does not authenticate. This is a property of SM3; HMAC over the sm3 object (C99) is not concerned."
  },
  {
   "property": "C113",
   "status": "proved",
   "theorems": [
    "Verif.Props.C113_ecbEncrypt",
    "Verif.Props.C113_ecbDecrypt",
    "Verif.Props.C113_cbcEncrypt",
    "Verif.Props.C113_cbcDecrypt",
    "Verif.Props.C113_roundtrip"
   ],
   "note": "The loops are modelled on memory (Sm4/Modes.lean), with crypto/cipher's CBC of Go 1.12 and its own buffers; errors and panics are those of C09, outputs those of C10 and C11."
  },
  {
   "property": "C114",
   "status": "proved",
   "theorems": [
    "Verif.Props.C114_sign",
    "Verif.Props.C114_verify",
    "Verif.Props.C114_cipher",
    "Verif.Props.C114_exchange",
    "Verif.Props.C114_keys",
    "Verif.Props.C114_lifecycle"
   ],
   "note": "big.Int memory modelled in EC/Store.lean and Sm2/Store.lean (math/big and crypto/elliptic statement by statement); C114_lifecycle joins it with C34 and C35. Calls that end in an error or a panic are included."
  },
  {
   "property": "C115",
   "status": "partial",
   "theorems": [
    "Verif.Props.C115_pair_partial",
    "Verif.Props.C115_public_partial",
    "Verif.Props.C115_private_partial",
    "Verif.Props.C115_shared_violated"
   ],
   "note": "Violated: the curve is copied as a struct of pointers. C115_shared_violated: after GetSm2P256V1().N.SetInt64(0) every verification under every key returns false. What holds: the numbers D, X and Y of a key are its own; whatever is assigned to those of a key that was generated, read or calculated, the curve and all keys that were there before are unaffected (C115_pair_partial, C115_public_partial, C115_private_partial)."
  },
  {
   "property": "C116",
   "status": "partial",
   "theorems": [
    "Verif.Props.C116_calls_partial",
    "Verif.Props.C116_reveals_violated",
    "Verif.Props.C116_key_violated",
    "Verif.Props.C116_decrypt_violated",
    "Verif.Props.C116_count_partial",
    "Verif.Props.C116_constant_violated"
   ],
   "note": "Violated: the sequence of doublings and additions is a function of the scalar from which the scalar is computed (C116_reveals_violated), so the operations of one signature give the private key (C116_key_violated) and those of Decrypt give it at once; the numbers of operations are eight doublings per byte and one addition per set bit. Operations are counted, their running time is not modelled."
  },
  {
   "property": "C117",
   "status": "partial",
   "theorems": [
    "Verif.Props.C117_accepts_violated",
    "Verif.Props.C117_last_violated",
    "Verif.Props.C117_only_partial"
   ],
   "note": "Violated: no ciphertext of 16 blocks or more is refused; and the last byte of every block of a message is found from the lengths of the answers to 256 questions about that block alone. What holds: the answers depend on that byte and the number of blocks alone (C117_only_partial). There is no authentication in the package, so the first part cannot be repaired by checking the padding; the second could be made harder."
  },
  {
   "property": "C118",
   "status": "proved",
   "theorems": [
    "Verif.Props.C118_table",
    "Verif.Props.C118_format"
   ],
   "note": "fmt's %08X is modelled by hand; C118_format shows for every number that reading undoes it."
  },
  {
   "property": "C119",
   "status": "proved",
   "theorems": [
    "Verif.Props.C119_results",
    "Verif.Props.C119_no_race",
    "Verif.Props.C119_finishes"
   ],
   "note": "Single accesses in Sm4/Conc.lean: bytes of arrays and words of the round-key arrays. Sequential consistency is assumed; C119_no_race is what the Go memory model requires for it. Making the cipher (NewCipher) comes before the goroutines start."
  },
  {
   "property": "C120",
   "status": "partial",
   "theorems": [
    "Verif.Props.C120_ecb_violated",
    "Verif.Props.C120_cbc_violated",
    "Verif.Props.C120_same_iv_violated",
    "Verif.Props.C120_iv_partial",
    "Verif.Props.C120_message_partial"
   ],
   "note": "Violated as the modes are made: C120_ecb_violated shows equal blocks exactly, C120_cbc_violated that equal CBC ciphertext blocks give the xor of the message blocks, C120_same_iv_violated that a reused initialisation vector shows the common leading blocks. What holds: with a uniform initialisation vector every single CBC ciphertext block is uniform, whatever the message (C120_iv_partial), and a uniform message has a uniform ciphertext (C120_message_partial). Secrecy against bounded adversaries is not expressible here."
  },
  {
   "property": "C121",
   "status": "partial",
   "theorems": [
    "Verif.Props.C121_confirmed_partial",
    "Verif.Props.C121_prefix_violated",
    "Verif.Props.C121_confirm_violated"
   ],
   "note": "Violated: neither tag covers the key length. C121_confirm_violated: sides that ask for different lengths confirm each other with different keys. C121_prefix_violated: the shorter key begins the longer one. With equal lengths the keys agree: for honest sides always (C48_agree), and for two sides that may be wrong about each other whenever one tag is accepted, up to an explicit SM3 collision (C121_confirmed_partial; the x-coordinates of the two shared points must have the same number of bytes)."
  },
  {
   "property": "C122",
   "status": "proved",
   "theorems": [
    "Verif.Props.C122_results",
    "Verif.Props.C122_no_race",
    "Verif.Props.C122_ends",
    "Verif.Props.C122_complete",
    "Verif.Props.C122_caller_writes"
   ],
   "note": "C122_results, C122_no_race, C122_ends, C122_complete for all calls of the package. Accesses of single numbers are the steps; that memory is sequentially consistent for programs without data races is the promise of the Go memory model and is assumed. C122_caller_writes: a caller's own goroutine that writes to the shared curve (C115) decides by its timing what a verification answers."
  },
  {
   "property": "C123",
   "status": "partial",
   "theorems": [
    "Verif.Props.C123_other_curve",
    "Verif.Props.C123_period_violated",
    "Verif.Props.C123_encrypt_violated",
    "Verif.Props.C123_forgery_violated",
    "Verif.Props.C123_exchange_violated"
   ],
   "note": "The code violates it: the curve arithmetic never reads B, so it computes in the group of the curve on which the pair lies (C123_other_curve). C123_period_violated: a scalar counts only modulo the order. C123_encrypt_violated: one of m guesses opens every ciphertext. C123_forgery_violated: signatures under a key of order m are made without a private key. C123_exchange_violated: one of m1·m2 guesses gives the key and both confirmation values, and tells the secret scalar modulo m1. Examples with (2, 0), (5, 0) of order 2 and a point of order 3. Decrypt is not open to this: Unmarshal checks the curve equation (C45)."
  },
  {
   "property": "C124",
   "status": "proved",
   "theorems": [
    "Verif.Props.C124_encrypt",
    "Verif.Props.C124_decrypt",
    "Verif.Props.C124_marshal",
    "Verif.Props.C124_unmarshal",
    "Verif.Props.C124_keys",
    "Verif.Props.C124_sign",
    "Verif.Props.C124_verify",
    "Verif.Props.C124_exchange",
    "Verif.Props.C124_later",
    "Verif.Props.C124_round_trip"
   ],
   "note": "Programs on a memory of arrays (Sm2/Buffers.lean), related step by step to the computations on byte strings of the other properties. C124_encrypt, _decrypt, _marshal, _unmarshal, _keys, _sign, _verify, _exchange; C124_later: later writes to the arguments do not reach the result and the other way round; C124_round_trip composes two calls. Numbers are values here (their memory: C114, C122); elliptic.Marshal, asn1.Marshal and Int.Bytes return new arrays, asn1.Unmarshal copies octet strings (assumed)."
  },
  {
   "property": "C125",
   "status": "partial",
   "theorems": [
    "Verif.Props.C125_read",
    "Verif.Props.C125_request_partial",
    "Verif.Props.C125_certificate_partial",
    "Verif.Props.C125_request_violated",
    "Verif.Props.C125_certificate_violated",
    "Verif.Props.C125_issue",
    "Verif.Props.C125_verify_violated",
    "Verif.Props.C125_mixed_violated"
   ],
   "note": "Violated: Raw, the signed part, the key info, subject, issuer and (unless its bit string has unused bits) the signature are windows of the buffer, while the public key, the names and the extensions are copies (C125_request_violated, C125_certificate_violated, for every accepted input). So a request with an invalid signature verifies after another one is read into the buffer (C125_verify_violated), and a certificate gets the names of the verified request with the key of the next one (C125_mixed_violated). What holds: C125_read (right after the call), C125_request_partial, C125_certificate_partial (the buffer is left alone), C125_issue (the result of CreateCertificateInfo is safe: only its own Raw is used). That RawContent, RawValue and BitString alias the input is read off Go 1.12's encoding/asn1 (trusted)."
  },
  {
   "property": "C126",
   "status": "partial",
   "theorems": [
    "Verif.Props.C126_kept",
    "Verif.Props.C126_caller",
    "Verif.Props.C126_fresh",
    "Verif.Props.C126_two_violated",
    "Verif.Props.C126_child_violated",
    "Verif.Props.C126_child_changes_violated"
   ],
   "note": "Holds for the outermost builder: the slice is never changed (C126_kept), nor any memory of the caller but the spare capacity of the buffer (C126_caller), and without spare capacity everything is in new memory (C126_fresh). Violated otherwise: two builders on a buffer with spare capacity overwrite each other's results (C126_two_violated); inside a continuation Bytes of the child begins with the zeros kept free for the length, which nobody added (C126_child_violated), and they are replaced when the continuation ends (C126_child_changes_violated; a content of 128 octets or more is moved as well)."
  },
  {
   "property": "C127",
   "status": "partial",
   "theorems": [
    "Verif.Props.C127_bytes",
    "Verif.Props.C127_prefixed",
    "Verif.Props.C127_asn1",
    "Verif.Props.C127_bits",
    "Verif.Props.C127_windows",
    "Verif.Props.C127_optional",
    "Verif.Props.C127_octets",
    "Verif.Props.C127_disjoint",
    "Verif.Props.C127_append_violated",
    "Verif.Props.C127_copy",
    "Verif.Props.C127_self",
    "Verif.Props.C127_failed_violated",
    "Verif.Props.C127_failed"
   ],
   "note": "The readers on slices and variables agree with the byte-list model (C127_bytes, C127_prefixed, C127_asn1, C127_bits, C127_optional, C127_octets), so slicing up to the capacity never over-reads; no program of reads panics and every variable stays a window of a buffer it started with (C127_windows); s.ReadASN1(&s) works (C127_self); stores inside what was read and inside what remains do not meet (C127_disjoint); CopyBytes copies (C127_copy). Violated: the capacity of what was read reaches over what remains, so append to it overwrites the rest with any chosen bytes (C127_append_violated); ReadASN1 and ReadASN1Element that fail on the tag store the content of the wrong element in the output (C127_failed_violated; ReadBytes and the length-prefixed readers do not, C127_failed)."
  },
  {
   "property": "C128",
   "status": "proved",
   "theorems": [
    "Verif.Props.C128_certificate",
    "Verif.Props.C128_extensions",
    "Verif.Props.C128_request",
    "Verif.Props.C128_requested"
   ],
   "note": "C128_certificate and C128_request give the whole layout; C128_extensions the contents of the ten extensions; C128_requested the extension request of a template without own attributes, in which no extension is critical (the flag of the template is dropped). The layout is in Verif.Spec.Wire with literal octets for the object identifiers of the standards, not in terms of the encoder."
  },
  {
   "property": "C129",
   "status": "partial",
   "theorems": [
    "Verif.Props.C129_renewed",
    "Verif.Props.C129_settled",
    "Verif.Props.C129_extensions",
    "Verif.Props.C129_others_violated"
   ],
   "note": "C129_renewed: all fields are kept (addresses in the form of the standard, host bits of ranges cleared); C129_settled: a second renewal changes nothing of them. C129_others_violated: extensions that the fields do not stand for are lost, critical ones too, so a certificate with name constraints on directory names only is renewed without name constraints, and UnhandledCriticalExtensions becomes empty; the criticality of extended key usage and others is not kept. C129_extensions: a renewed certificate that is renewed again by the same CA has the same extensions octet for octet."
  },
  {
   "property": "C130",
   "status": "proved",
   "theorems": [
    "Verif.Props.C130_ctr",
    "Verif.Props.C130_ofb",
    "Verif.Props.C130_cfb",
    "Verif.Props.C130_sizes",
    "Verif.Props.C130_inverse",
    "Verif.Props.C130_value"
   ],
   "note": "C130_ctr, C130_ofb, C130_cfb: conformance and independence of the division; C130_inverse: round trips; C130_sizes: panics for wrong sizes; C130_value: Encrypt on values is Encrypt on memory (overlaps included). crypto/cipher of Go 1.12 is transcribed."
  },
  {
   "property": "C131",
   "status": "partial",
   "theorems": [
    "Verif.Props.C131_link",
    "Verif.Props.C131_chain",
    "Verif.Props.C131_parent_violated",
    "Verif.Props.C131_ca_violated",
    "Verif.Props.C131_akid_violated"
   ],
   "note": "Proved for names, key identifiers and signatures, for chains of any length (C131_link, C131_chain). Violated for the rest: of the parent only the name and the key identifier are looked at (C131_parent_violated, C131_ca_violated); without a key identifier in the parent the template's is kept (C131_akid_violated)."
  },
  {
   "property": "C132",
   "status": "proved",
   "theorems": [
    "Verif.Props.C132_tag",
    "Verif.Props.C132_key",
    "Verif.Props.C132_other_key",
    "Verif.Props.C132_rest",
    "Verif.Props.C132_same_key"
   ],
   "note": "Proved, with the collision given explicitly. The order of the curve is prime, so keys are compared modulo n; keys that are equal modulo n decrypt alike (C132_same_key)."
  },
  {
   "property": "C133",
   "status": "partial",
   "theorems": [
    "Verif.Props.C133_integer_panics",
    "Verif.Props.C133_integer_reads",
    "Verif.Props.C133_optional_panics_violated",
    "Verif.Props.C133_optional_partial",
    "Verif.Props.C133_constant_violated"
   ],
   "note": "Holds for ReadASN1Integer (C133_integer_panics, C133_integer_reads) and for ReadOptionalASN1Integer if the default value has the type of the variable (C133_optional_partial). Violated otherwise: the default value is only looked at if the element is absent, so a constant of type int as the default of an int64 variable works until an input without the element comes (C133_constant_violated); the exact condition is C133_optional_panics_violated."
  },
  {
   "property": "C134",
   "status": "partial",
   "theorems": [
    "Verif.Props.C134_first_error_partial",
    "Verif.Props.C134_calm_methods",
    "Verif.Props.C134_addValue_violated",
    "Verif.Props.C134_ancestor_violated",
    "Verif.Props.C134_buildError_violated"
   ],
   "note": "Holds (C134_first_error_partial, an equivalence) for programs that do not panic, make no calls on ancestors and assign an error only to a builder that cannot carry one yet; C134_calm_methods says which methods are of this kind. Violated otherwise: AddValue and AddASN1GeneralizedTime replace an earlier error (C134_addValue_violated), a child's error replaces the one reported on its parent (C134_ancestor_violated), and the error of a BuildError panic is lost when the content written before it is too long (C134_buildError_violated)."
  },
  {
   "property": "C135",
   "status": "partial",
   "theorems": [
    "Verif.Props.C135_refines",
    "Verif.Props.C135_count_partial",
    "Verif.Props.C135_schedule_violated",
    "Verif.Props.C135_encrypt_violated",
    "Verif.Props.C135_decrypt_violated",
    "Verif.Props.C135_block_violated"
   ],
   "note": "The number of lookups is constant (C135_count_partial; the functions with the lookups written down compute what the cipher computes, C135_refines). The addresses are not: the lookups of any four consecutive rounds of the key schedule determine the key (C135_schedule_violated), those of the first four rounds of a block known to the observer determine the key (C135_encrypt_violated, C135_decrypt_violated), and with a known key those of any four consecutive rounds determine the block (C135_block_violated)."
  },
  {
   "property": "C136",
   "status": "proved",
   "theorems": [
    "Verif.Props.C136_slide",
    "Verif.Props.C136_rounds",
    "Verif.Props.C136_mask",
    "Verif.Props.C136_dual"
   ],
   "note": "C136_slide, C136_mask, C136_dual. C136_rounds shows that the rounds by themselves do have the rule with the mask, so that C136_mask is due to the key schedule."
  },
  {
   "property": "C137",
   "status": "proved",
   "theorems": [
    "Verif.Props.C137_permutation",
    "Verif.Props.C137_fixed",
    "Verif.Props.C137_expansion"
   ],
   "note": "C137_permutation, C137_fixed, C137_expansion; an edit that drops or repeats a register or a word breaks them."
  },
  {
   "property": "C138",
   "status": "proved",
   "theorems": [
    "Verif.Props.C138_message",
    "Verif.Props.C138_front",
    "Verif.Props.C138_total",
    "Verif.Props.C138_endless"
   ],
   "note": "C138_message, C138_front, C138_total, C138_endless (repeating a part that may be empty does not end, so that condition is needed). Booleans are left out of the formats because they do not round-trip (C25), big integers because -1 makes the Builder panic (C23)."
  },
  {
   "property": "C139",
   "status": "partial",
   "theorems": [
    "Verif.Props.C139_last_partial",
    "Verif.Props.C139_all_partial",
    "Verif.Props.C139_repeated_violated",
    "Verif.Props.C139_ca_violated"
   ],
   "note": "Violated: C139_repeated_violated (repetition is never an error), C139_ca_violated (a certificate that says first that it is not a CA's and then that it is one is accepted as a CA's). What holds instead: each extension is accepted or refused on its own; of repeated ones the last counts for key usage, basic constraints, names, name constraints, key identifiers and policies (C139_last_partial), while extended key usages, CRL distribution points, OCSP servers, issuers' URLs and unhandled critical identifiers are collected from all of them (C139_all_partial)."
  },
  {
   "property": "C140",
   "status": "partial",
   "theorems": [
    "Verif.Props.C140_apart",
    "Verif.Props.C140_either",
    "Verif.Props.C140_issued",
    "Verif.Props.C140_raw_violated"
   ],
   "note": "Proved: C140_apart, C140_either, C140_issued. The last part is violated: the RawSubject of a template is written without looking at it, so a created request can be an accepted version 1 certificate with the requester's key, any issuer, subject and validity, and a valid signature by the requester's key (C140_raw_violated); such a request is itself not accepted as a request (C140_either)."
  },
  {
   "property": "C141",
   "status": "proved",
   "theorems": [
    "Verif.Props.C141_recover",
    "Verif.Props.C141_four",
    "Verif.Props.C141_collision",
    "Verif.Props.C141_second"
   ],
   "note": "C141_second shows that the binding of the key rests on the hash alone: for every accepted pair there is a second key for which verification differs in nothing but the digest."
  },
  {
   "property": "C142",
   "status": "partial",
   "theorems": [
    "Verif.Props.C142_wire",
    "Verif.Props.C142_asked_partial",
    "Verif.Props.C142_names_partial",
    "Verif.Props.C142_second_violated",
    "Verif.Props.C142_malformed_violated",
    "Verif.Props.C142_names_violated"
   ],
   "note": "What holds: every extension of the request comes from the first value of an extensionRequest attribute, attribute after attribute (C142_wire), and the list in the first value of each well-formed attribute is taken in full (C142_asked_partial); the names are those of the last SAN extension, the earlier ones being checked only (C142_names_partial). Violated: a second value is ignored, an attribute with an empty or missing SET is passed over without an error, and of two SAN extensions only the second gives names."
  },
  {
   "property": "C143",
   "status": "proved",
   "theorems": [
    "Verif.Props.C143_exact",
    "Verif.Props.C143_accepts",
    "Verif.Props.C143_unique"
   ],
   "note": "C143_exact is an equivalence between what the function returns and a grammar over octets; C143_accepts says that everything else is an error (not a panic); C143_unique says that the grammar is unambiguous."
  },
  {
   "property": "C144",
   "status": "proved",
   "theorems": [
    "Verif.Props.C144_extension",
    "Verif.Props.C144_readable",
    "Verif.Props.C144_exact",
    "Verif.Props.C144_accepts",
    "Verif.Props.C144_rejects",
    "Verif.Props.C144_unique"
   ],
   "note": "C144_exact is an equivalence between what the function returns and a grammar over octets that fixes every field of the result; C144_extension and C144_readable are the same for a single extension; C144_accepts says which words are accepted, C144_rejects that all else is an error, C144_unique that the grammar is unambiguous."
  },
  {
   "property": "C145",
   "status": "proved",
   "theorems": [
    "Verif.Props.C145_transform",
    "Verif.Props.C145_seven",
    "Verif.Props.C145_eight",
    "Verif.Props.C145_block",
    "Verif.Props.C145_sbox",
    "Verif.Props.C145_key_transform",
    "Verif.Props.C145_key_seven",
    "Verif.Props.C145_key_ten",
    "Verif.Props.C145_key"
   ],
   "note": "C145_seven, C145_eight, C145_block on the indices that processBlock looks up (the function of C135), C145_transform, C145_sbox. The tables behind them are checked as a whole: 255 · 256 pairs of bytes for the S-box, 2 · 255 · 255 sums of two columns for the linear transform. Key schedule: C145_key_transform, C145_key_seven, C145_key_ten, C145_key for the indices that expandKey looks up under two keys; its linear transform has branch number four, not five."
  },
  {
   "property": "C146",
   "status": "partial",
   "theorems": [
    "Verif.Props.C146_read",
    "Verif.Props.C146_return",
    "Verif.Props.C146_signed",
    "Verif.Props.C146_kept_partial",
    "Verif.Props.C146_follows_violated",
    "Verif.Props.C146_violated"
   ],
   "note": "True at the return (C146_return, C146_read), and as long as nobody writes to the serial number, the raw names, the extra extensions and the key of the arguments (C146_kept_partial). Violated for every template: these fields are those of the arguments at any time (C146_follows_violated), Raw is not; C146_violated has a template whose serial number is increased after the call. What is signed and issued does not change in any case (C146_signed)."
  },
  {
   "property": "C147",
   "status": "partial",
   "theorems": [
    "Verif.Props.C147_reads",
    "Verif.Props.C147_refused",
    "Verif.Props.C147_constraints_partial",
    "Verif.Props.C147_partial",
    "Verif.Props.C147_constraints_violated",
    "Verif.Props.C147_certificate_violated",
    "Verif.Props.C147_violated"
   ],
   "note": "Violated: the element reader converts the length to int and checks only that converting back gives the same, so a length of 2^31 or more becomes negative and the slice expression panics. C147_reads says exactly for which inputs the reader panics; C147_constraints_violated and C147_certificate_violated put such an element in an extension, C147_violated has a whole certificate. C147_partial: apart from the panic in place of an error nothing differs, and everything accepted on one kind of platform is accepted on the other. Version and MaxPathLen are modelled as 64-bit numbers on both."
  },
  {
   "property": "C148",
   "status": "proved",
   "theorems": [
    "Verif.Props.C148_layouts",
    "Verif.Props.C148_repeats"
   ],
   "note": "accepted_iff says, for a ciphertext whose first 65 bytes encode a point, what Decrypt accepts in each layout and what it returns. The condition of a coincidence cannot be removed: whether such ciphertexts exist is a question about SM3. C148_repeats: a text that can be exchanged with its tag repeats itself every 32 bytes."
  },
  {
   "property": "C149",
   "status": "partial",
   "theorems": [
    "Verif.Props.C149_forms_partial",
    "Verif.Props.C149_layout_free",
    "Verif.Props.C149_canonical_partial",
    "Verif.Props.C149_violated",
    "Verif.Props.C149_sign_violated"
   ],
   "note": "Violated: every ciphertext of Encrypt has one DER form for each place at which the first octet string may end, each with arbitrary bytes behind it (C149_violated), and negated coordinates are read as the coordinates (C149_sign_violated). C149_forms_partial says exactly which byte strings are read as a given ciphertext. C149_canonical_partial: with coordinates that are not negative, a hash of 32 bytes and nothing behind the fields, the form is MarshalCipher's. C149_layout_free: the layout passed to UnmarshalCipher has no effect."
  },
  {
   "property": "C150",
   "status": "proved",
   "theorems": [
    "Verif.Props.C150_attributes",
    "Verif.Props.C150_certificate",
    "Verif.Props.C150_total",
    "Verif.Props.C150_request"
   ],
   "note": "C150_certificate, C150_total, C150_request, C150_attributes. Counted are octets, plus two to five for each entry of a list. The sizes of the URL objects are not counted. The field Attributes repeats octets of the attributes of a request and has its own bound."
  },
  {
   "property": "C151",
   "status": "partial",
   "theorems": [
    "Verif.Props.C151_decides_partial",
    "Verif.Props.C151_exact",
    "Verif.Props.C151_bytes_partial",
    "Verif.Props.C151_empty_violated",
    "Verif.Props.C151_sign_exact"
   ],
   "note": "Holds for messages that are not empty, messages below 2^31 bytes and identities below 2^31+2 bytes (C151_decides_partial, C151_bytes_partial). C151_exact and C151_sign_exact: exactly when verifying and signing panic. Violated by the empty message: C151_empty_violated gives one signature of eight octets for which Verify panics under every key."
  },
  {
   "property": "C152",
   "status": "partial",
   "theorems": [
    "Verif.Props.C152_exact_partial",
    "Verif.Props.C152_count_partial",
    "Verif.Props.C152_string_violated",
    "Verif.Props.C152_critical_violated",
    "Verif.Props.C152_password_violated"
   ],
   "note": "C152_exact_partial: octet by octet which attributes are kept and as what; C152_count_partial: none is invented. Violated: attributes whose value is a string are dropped without an error, for all types and strings (C152_string_violated), as the challenge password of an accepted request (C152_password_violated); of a critical extension that is asked for, the value is lost (C152_critical_violated)."
  },
  {
   "property": "C153",
   "status": "partial",
   "theorems": [
    "Verif.Props.C153_again_partial",
    "Verif.Props.C153_nil_violated",
    "Verif.Props.C153_critical_violated"
   ],
   "note": "C153_again_partial: for all requests that the library makes from templates as in C59 whose attributes can be encoded; nothing is asked for twice, the template is not changed, and with the same key the signed part is equal octet by octet. Violated for requests made elsewhere: if a pair in Attributes has lost its value, no request can be made at all (C153_nil_violated), as for an accepted request that asks for critical extensions (C153_critical_violated); string attributes are lost when they are parsed (C152)."
  },
  {
   "property": "C154",
   "status": "partial",
   "theorems": [
    "Verif.Props.C154_integer",
    "Verif.Props.C154_octets",
    "Verif.Props.C154_bits",
    "Verif.Props.C154_sequence",
    "Verif.Props.C154_signature",
    "Verif.Props.C154_ciphertext",
    "Verif.Props.C154_oid_partial",
    "Verif.Props.C154_oid_violated",
    "Verif.Props.C154_boolean_violated",
    "Verif.Props.C154_element",
    "Verif.Props.C154_high_tag_violated"
   ],
   "note": "C154_integer, C154_octets, C154_bits, C154_sequence, C154_element (tag numbers below 31), C154_signature and C154_ciphertext: agreement in both directions, with the same value and rest. C154_oid_partial: cryptobyte reads exactly those identifiers encoding/asn1 reads whose numbers take at most four septets. Violated: an identifier with a number from 2^28 on (C154_oid_violated), every BOOLEAN (C154_boolean_violated, the reader asks for tag INTEGER), every element with a tag number from 31 on (C154_high_tag_violated)."
  },
  {
   "property": "C155",
   "status": "partial",
   "theorems": [
    "Verif.Props.C155_integer_partial",
    "Verif.Props.C155_octets",
    "Verif.Props.C155_bits",
    "Verif.Props.C155_boolean",
    "Verif.Props.C155_signature_partial",
    "Verif.Props.C155_ciphertext",
    "Verif.Props.C155_oid_partial",
    "Verif.Props.C155_oid_violated",
    "Verif.Props.C155_minus_one_violated"
   ],
   "note": "C155_integer_partial and C155_signature_partial (every integer but -1), C155_octets, C155_bits, C155_boolean, C155_ciphertext (both orders of the fields), C155_oid_partial (no negative component; the same identifiers are refused, and where the first two numbers overflow both write the same wrong octets). Violated: the builder panics at -1, which encoding/asn1 writes (C155_minus_one_violated); a negative component is left out by encoding/asn1 without an error and reported by the builder (C155_oid_violated)."
  },
  {
   "property": "C156",
   "status": "proved",
   "theorems": [
    "Verif.Props.C156_ecb",
    "Verif.Props.C156_cbc_encrypt",
    "Verif.Props.C156_cbc_decrypt",
    "Verif.Props.C156_cbc_piece"
   ],
   "note": "C156_ecb, C156_cbc_encrypt, C156_cbc_decrypt: for two pieces, hence by repetition for any number; C156_cbc_piece: random access to an encrypted message."
  },
  {
   "property": "C157",
   "status": "proved",
   "theorems": [
    "Verif.Props.C157_ecb",
    "Verif.Props.C157_cbc",
    "Verif.Props.C157_cbc_same_iv",
    "Verif.Props.C157_cbc_injective"
   ],
   "note": "C157_ecb, C157_cbc, C157_cbc_same_iv, C157_cbc_injective: exactly the equalities that an observer can see. No claim is made about what else could be computed from a ciphertext."
  },
  {
   "property": "C158",
   "status": "proved",
   "theorems": [
    "Verif.Props.C158_signature",
    "Verif.Props.C158_ciphertext"
   ],
   "note": "C158_signature: exact length and bounds; C158_ciphertext: exact length of the raw form, bounds for the DER form."
  },
  {
   "property": "C159",
   "status": "partial",
   "theorems": [
    "Verif.Props.C159_differ_partial",
    "Verif.Props.C159_iv_violated",
    "Verif.Props.C159_block_violated",
    "Verif.Props.C159_exchange_violated"
   ],
   "note": "The code has no integrity check. C159_differ_partial: different ciphertexts give different messages under one key and IV. C159_iv_violated: bits changed in the IV are changed in the first block, and nothing else is. C159_block_violated: bits changed in a block of a CBC ciphertext are changed in the next block of the message, the block itself becomes another one, and nothing else changes. C159_exchange_violated: exchanging parts of an ECB ciphertext exchanges the parts of the message."
  },
  {
   "property": "C160",
   "status": "partial",
   "theorems": [
    "Verif.Props.C160_empty_partial",
    "Verif.Props.C160_refused_violated",
    "Verif.Props.C160_key_violated"
   ],
   "note": "Signatures take nil for 1234567812345678 (C40), the key exchange for the empty identity. C160_empty_partial: in the exchange nil means the empty identity, in both roles and for both sides. C160_refused_violated: in an undisturbed exchange an initiator that names the responder by the default identity does not accept the tag of a responder with nil, or one of three explicit pairs is a collision of SM3. C160_key_violated: a concrete exchange where the keys differ and the tag is refused."
  }
 ]
}