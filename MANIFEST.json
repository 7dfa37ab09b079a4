{
 "claims": [
  {
   "property": "C01",
   "status": "partial",
   "theorems": [
    "Husk.C01_roundtrip_partial",
    "Husk.C01_write_succeeds",
    "Husk.C01_shadowed_unknown"
   ],
   "note": "all nine kinds of message; excluded: Extension::Unknown carrying type 10, 11 or 13, which is constructible and does not round-trip (C01_shadowed_unknown)"
  },
  {
   "property": "C02",
   "status": "proved",
   "theorems": [
    "Husk.C02_size_handshake",
    "Husk.C02_size_extension",
    "Husk.C02_size_vec",
    "Husk.C02_size_alert",
    "Husk.C02_size_suite",
    "Husk.C02_size_enum",
    "Husk.C02_size_array",
    "Husk.C02_size_digitally_signed"
   ],
   "note": "all item types; every constructible value"
  },
  {
   "property": "C03",
   "status": "partial",
   "theorems": [
    "Husk.C03_reserialise",
    "Husk.C03_canonical_partial",
    "Husk.C03_junk_lost"
   ],
   "note": "holds unless bytes follow the extension block of a hello; C03_reserialise says exactly what is lost, C03_junk_lost is an accepted message whose re-serialisation differs"
  },
  {
   "property": "C04",
   "status": "partial",
   "theorems": [
    "Husk.C04_total",
    "Husk.C04_no_trailing_partial",
    "Husk.C04_trailing_rejected"
   ],
   "note": "total and panic-free for all byte strings; trailing bytes are reported except after the extension block of a hello (C03_junk_lost)"
  },
  {
   "property": "C05",
   "status": "proved",
   "theorems": [
    "Husk.C05_new_iff",
    "Husk.C05_decoded_bounds",
    "Husk.C05_decoded_handshake"
   ],
   "note": "all vector types"
  },
  {
   "property": "C06",
   "status": "partial",
   "theorems": [
    "Husk.C06_vec_prefix",
    "Husk.C06_extension_length_partial",
    "Husk.C06_handshake_length_partial",
    "Husk.C06_extension_truncates",
    "Husk.C06_handshake_truncates"
   ],
   "note": "vector prefixes always right; extension and handshake lengths right inside an extension block / below 2^24 bytes; both truncations of the constructors are proved as theorems"
  },
  {
   "property": "C07",
   "status": "proved",
   "theorems": [
    "Husk.C07_enum",
    "Husk.C07_alert_level",
    "Husk.C07_alert_description",
    "Husk.C07_hash",
    "Husk.C07_signature",
    "Husk.C07_compression",
    "Husk.C07_point_format",
    "Husk.C07_certificate_type",
    "Husk.C07_named_curve"
   ],
   "note": "all numbers of all eight enums, code points compared with the RFC lists"
  },
  {
   "property": "C08",
   "status": "proved",
   "theorems": [
    "Husk.C08_hello_refused",
    "Husk.C08_suite_decode",
    "Husk.C08_unknown_not_written"
   ],
   "note": "All suite ids: decoding, writing of any message, and a ServerHello with any fields, fragmentation and continuation."
  },
  {
   "property": "C09",
   "status": "proved",
   "theorems": [
    "Husk.C09_reassembly",
    "Husk.C09_all_delivered"
   ],
   "note": "all message sequences, fragmentations and poll interleavings"
  },
  {
   "property": "C10",
   "status": "proved",
   "theorems": [
    "Husk.C10_incomplete",
    "Husk.C10_strict_prefix",
    "Husk.C10_complete",
    "Husk.C10_unknown_type",
    "Husk.C10_total"
   ],
   "note": "all buffer contents"
  },
  {
   "property": "C11",
   "status": "proved",
   "theorems": [
    "Husk.C11_history",
    "Husk.C11_record",
    "Husk.C11_read_exact",
    "Husk.C11_too_short"
   ],
   "note": "all histories of TlsReader calls and all cuttings of the stream; early end gives IoFailure"
  },
  {
   "property": "C12",
   "status": "partial",
   "theorems": [
    "Husk.C12_loses_bytes",
    "Husk.C12_between_records_partial",
    "Husk.C12_interrupted_record_lost"
   ],
   "note": "false inside a record: C12_loses_bytes proves, for every record and every position of the interruption, that the bytes before it are dropped; holds between records"
  },
  {
   "property": "C13",
   "status": "proved",
   "theorems": [
    "Husk.C13_roundtrip"
   ],
   "note": "all data, content types, IVs, counters with room; any matching cipher pair, instantiated with the crate's cipher, and without encryption"
  },
  {
   "property": "C14",
   "status": "proved",
   "theorems": [
    "Husk.C14_fragmentation",
    "Husk.C14_succeeds"
   ],
   "note": "all lengths; C14_succeeds excludes a panic for the crate's cipher"
  },
  {
   "property": "C15",
   "status": "partial",
   "theorems": [
    "Husk.C15_nonces_distinct_partial",
    "Husk.C15_reuse_after_failure"
   ],
   "note": "holds for all histories in which only the last operation fails; C15_reuse_after_failure proves nonce reuse after a failed write for every key and IV"
  },
  {
   "property": "C16",
   "status": "proved",
   "theorems": [
    "Husk.C16_kth_record",
    "Husk.C16_writer",
    "Husk.C16_reader",
    "Husk.C16_reader_refuses"
   ],
   "note": "per record on both sides, and the k-th call of a whole history"
  },
  {
   "property": "C17",
   "status": "proved",
   "theorems": [
    "Husk.C17_delivered_is_prefix",
    "Husk.C17_client_prefix"
   ],
   "note": "every attacker script, any number of reads with errors in between, assuming the decryptor opens only what the peer sealed (Ideal)"
  },
  {
   "property": "C18",
   "status": "partial",
   "theorems": [
    "Husk.C18_header_too_long",
    "Husk.C18_plain_too_long",
    "Husk.C18_never_delivered",
    "Husk.C18_encrypted_too_long_panics",
    "Husk.C18_refused_partial"
   ],
   "note": "header and plaintext lengths refused with RecordOverflow and nothing over-long is delivered; an encrypted record with an over-long plaintext panics (C18_encrypted_too_long_panics)"
  },
  {
   "property": "C19",
   "status": "partial",
   "theorems": [
    "Husk.C19_no_panic_partial",
    "Husk.C19_no_panic_plaintext",
    "Husk.C19_panic_exists"
   ],
   "note": "no panic without encryption for any bytes; with encryption the only panic is the over-long plaintext (C19_panic_exists); record counter below 2^64"
  },
  {
   "property": "C20",
   "status": "partial",
   "theorems": [
    "Husk.C20_change_cipher_spec",
    "Husk.C20_alert_partial",
    "Husk.C20_alert_two_bytes",
    "Husk.C20_long_alert_accepted"
   ],
   "note": "ChangeCipherSpec exact; alerts accepted iff the first two bytes are known numbers; longer alerts are accepted too (C20_long_alert_accepted)"
  },
  {
   "property": "C21",
   "status": "proved",
   "theorems": [
    "Husk.C21_ok_means_all",
    "Husk.C21_all_or_error",
    "Husk.C21_succeeds"
   ],
   "note": "Ok(n) implies n = buf.len() and all records handed over (any encryptor); with the crate's cipher the only other result is an I/O error. Assumes the 64-bit record counter has room."
  },
  {
   "property": "C22",
   "status": "proved",
   "theorems": [
    "Husk.C22_read",
    "Husk.C22_history",
    "Husk.C22_stream"
   ],
   "note": "For every single call, every history of calls (bytes collected by a call that panics are lost with it), and end to end from a peer's write over any transport cuts."
  },
  {
   "property": "C23",
   "status": "partial",
   "theorems": [
    "Husk.C23_delivered_after_close",
    "Husk.C23_end_after_close_partial"
   ],
   "note": "False of the code (C23_delivered_after_close): data after close_notify is delivered by the same read call. Holds if the transport ends after close_notify."
  },
  {
   "property": "C24",
   "status": "partial",
   "theorems": [
    "Husk.C24_alert_panics",
    "Husk.C24_change_cipher_spec_panics",
    "Husk.C24_handshake_panics",
    "Husk.C24_no_panic_partial"
   ],
   "note": "False of the code: every alert but close_notify, ChangeCipherSpec and every handshake message make read panic. Proved: read does not panic on anything else (garbage, damaged records, I/O failures)."
  },
  {
   "property": "C25",
   "status": "partial",
   "theorems": [
    "Husk.C25_never_err",
    "Husk.C25_bad_record_is_end_of_stream",
    "Husk.C25_end_of_stream",
    "Husk.C25_failure_is_short_partial"
   ],
   "note": "False of the code: read never returns an error; a record with a bad tag looks like end of stream. Proved: a failure always shows as a short count and only a failure does."
  },
  {
   "property": "C26",
   "status": "proved",
   "theorems": [
    "Husk.C26_no_application_data",
    "Husk.C26_keys_installed",
    "Husk.C26_write"
   ],
   "note": "All servers and transports. Everything new sends is handshake, ChangeCipherSpec and alert records; a constructed client has both ciphers with keys and IVs, so write returns all or IoFailure."
  },
  {
   "property": "C27",
   "status": "partial",
   "theorems": [
    "Husk.C27_unique",
    "Husk.C27_not_proper",
    "Husk.C27_flight_partial"
   ],
   "note": "All accepted streams and fragmentations. The whole flight in order with version, suite, compression and the checked point (C27_flight_partial), determined by the stream (C27_unique). False of the code in one respect: the first bytes of Finished may come in clear before ChangeCipherSpec (C27_not_proper, C33_unprotected). In release a point with x-coordinate >= p is not known to be on the curve (C48)."
  },
  {
   "property": "C28",
   "status": "proved",
   "theorems": [
    "Husk.C28_mismatch",
    "Husk.C28_verified"
   ],
   "note": "Success implies the received value is the PRF value over the client's own transcript, for all streams. C28_mismatch: against a server that is right in everything else, any other 12-byte value gives DecryptError."
  },
  {
   "property": "C29",
   "status": "partial",
   "theorems": [
    "Husk.C29_not_always",
    "Husk.C29_completes_partial",
    "Husk.C29_point",
    "Husk.C29_client_data_partial",
    "Husk.C29_server_data_partial"
   ],
   "note": "Success, equal keys and application data both ways, for all values of the server, all cuts of its records and all draws of the client, with a transport without write errors. Missing: if the seven scalar bytes are all zero the client sends no point of the curve (C29_point), which a conforming server refuses, so the full claim is false (C29_not_always). Bytes after the extension block and optional messages such as CertificateRequest are not among the values of the server."
  },
  {
   "property": "C30",
   "status": "partial",
   "theorems": [
    "Husk.C30_not_authenticated",
    "Husk.C30_no_certificate",
    "Husk.C30_key_confirmation_partial"
   ],
   "note": "False of the code as stated (C30_not_authenticated, for every notion of validity that excludes some server; C30_no_certificate: no certificate and an empty signature are accepted). Proved: only that the server knows the session keys."
  },
  {
   "property": "C31",
   "status": "proved",
   "theorems": [
    "Husk.C31_success",
    "Husk.C31_hello_first"
   ],
   "note": "All randoms, servers and transports."
  },
  {
   "property": "C32",
   "status": "proved",
   "theorems": [
    "Husk.C32_alert",
    "Husk.C32_error"
   ],
   "note": "All failing runs. If the transport fails while something is sent, a prefix of it is on the wire."
  },
  {
   "property": "C33",
   "status": "partial",
   "theorems": [
    "Husk.C33_unprotected",
    "Husk.C33_not_protected",
    "Husk.C33_last_byte_partial"
   ],
   "note": "False of the code as stated (C33_not_protected: 15 of the 16 bytes of Finished come in clear). Proved: the last byte is always protected, and all of it if nothing follows ServerHelloDone in clear."
  },
  {
   "property": "C34",
   "status": "proved",
   "theorems": [
    "Husk.C34_chacha20_is_rfc8439",
    "Husk.C34_next_is_block",
    "Husk.C34_new_wrong_length",
    "Husk.C34_encrypt_involutive"
   ],
   "note": "all keys, nonces, data and start blocks for which the 32-bit counter suffices; both build modes"
  },
  {
   "property": "C35",
   "status": "proved",
   "theorems": [
    "Husk.C35_counter_no_overflow",
    "Husk.C35_bound_sharp"
   ],
   "note": "no overflow up to 2^38-128 bytes (records have at most 2^14+2048); the bound is shown to be sharp"
  },
  {
   "property": "C36",
   "status": "proved",
   "theorems": [
    "Husk.C36_poly1305",
    "Husk.C36_accumulate_is_polynomial"
   ],
   "note": "all messages and keys, both build modes"
  },
  {
   "property": "C37",
   "status": "proved",
   "theorems": [
    "Husk.C37_roundtrip"
   ],
   "note": "all keys, nonces, additional data, plaintexts up to 2^38-144 bytes"
  },
  {
   "property": "C38",
   "status": "proved",
   "theorems": [
    "Husk.C38_accepts_iff_tag",
    "Husk.C38_rejects_with_BadRecordMac",
    "Husk.C38_short_rejected",
    "Husk.C38_wrong_tag_rejected"
   ],
   "note": "acceptance iff the tag is right; everything else is BadRecordMac"
  },
  {
   "property": "C39",
   "status": "proved",
   "theorems": [
    "Husk.C39_encrypt_is_rfc8439",
    "Husk.C39_decrypt_is_rfc8439",
    "Husk.C39_macInput_injective"
   ],
   "note": "encrypt and decrypt equal the RFC 8439 construction; MAC input injective for lengths below 2^64"
  },
  {
   "property": "C40",
   "status": "proved",
   "theorems": [
    "Husk.C40_sha256_is_fips180",
    "Husk.C40_sha256_unique",
    "Husk.C40_sha256_eq"
   ],
   "note": "messages shorter than 2^61 bytes, functional specification written from FIPS 180-4"
  },
  {
   "property": "C41",
   "status": "partial",
   "theorems": [
    "Husk.C41_hmac_is_rfc2104_partial",
    "Husk.C41_hmac_long_key_panics",
    "Husk.C41_hmac_full_claim_false"
   ],
   "note": "RFC 2104 for keys of at most 64 bytes; for longer keys the code panics (unimplemented!), proved as a theorem, so the full claim is false of the code"
  },
  {
   "property": "C42",
   "status": "proved",
   "theorems": [
    "Husk.C42_prf_stream"
   ],
   "note": "for any secret of at most 64 bytes and any sequence of request sizes"
  },
  {
   "property": "C43",
   "status": "proved",
   "theorems": [
    "Husk.C43_crypto_compare_is_equality",
    "Husk.C43_true_iff"
   ],
   "note": "all slices of equal length, both build modes"
  },
  {
   "property": "C44",
   "status": "proved",
   "theorems": [
    "Husk.C44_add",
    "Husk.C44_double",
    "Husk.C44_sub",
    "Husk.C44_mult",
    "Husk.C44_square",
    "Husk.C44_reduce_once",
    "Husk.C44_divide_by_2"
   ],
   "note": "add, double, sub, mult, square, reduce_once and divide_by_2 are the field operations of GF(p) on canonical operands, in both build modes."
  },
  {
   "property": "C45",
   "status": "proved",
   "theorems": [
    "Husk.C45_inverse",
    "Husk.C45_inverse_zero"
   ],
   "note": "inverse returns the field inverse of every non-zero element and 0 for 0; p is proved prime by Pratt certificates."
  },
  {
   "property": "C46",
   "status": "proved",
   "theorems": [
    "Husk.C46_compare",
    "Husk.C46_choose",
    "Husk.C46_choose_point"
   ],
   "note": "compare and choose (integers and points) do what their names say for all operands."
  },
  {
   "property": "C47",
   "status": "proved",
   "theorems": [
    "Husk.C47_roundtrip",
    "Husk.C47_big_endian",
    "Husk.C47_accepts_32",
    "Husk.C47_inverse"
   ],
   "note": "to_bytes/from_bytes are mutually inverse, big endian, and exactly the 32-byte strings are accepted."
  },
  {
   "property": "C48",
   "status": "partial",
   "theorems": [
    "Husk.C48_accepts_curve_points",
    "Husk.C48_rejects_malformed",
    "Husk.C48_reencodes",
    "Husk.C48_exact_for_reduced_x_partial",
    "Husk.C48_check",
    "Husk.C48_debug_accepts_only_curve_partial",
    "Husk.C48_accepts_non_canonical",
    "Husk.C48_release_accepts_off_curve",
    "Husk.C48_debug_exact",
    "Husk.C48_debug_panics",
    "Husk.C48_not_exact"
   ],
   "note": "False of the code as stated (C48_not_exact): x or y >= p is accepted, in release an off-curve point is accepted, in debug some x >= p panic. Proved: all encoded curve points are accepted, malformed lengths/prefixes are rejected, exactness when x < p, in debug only points whose residues are on the curve are accepted, and the exact behaviour of debug builds (C48_debug_exact: panic iff 3x >= 2^256 + 2p)."
  },
  {
   "property": "C49",
   "status": "proved",
   "theorems": [
    "Husk.C49_add",
    "Husk.C49_double",
    "Husk.C49_normalize",
    "Husk.C49_normalize_infinity",
    "Husk.C49_rep_unique"
   ],
   "note": "add and double compute the group law of the Weierstrass curve for all operands including infinity and equal/opposite points; normalize gives the affine coordinates."
  },
  {
   "property": "C50",
   "status": "partial",
   "theorems": [
    "Husk.C50_effective_scalar",
    "Husk.C50_mult_scalar_partial",
    "Husk.C50_wrong_from_256",
    "Husk.C50_not_scalar_multiplication"
   ],
   "note": "False of the code as stated (C50_not_scalar_multiplication): mult_scalar uses only 56 bits of the scalar (bits 0-7 of limbs 0-6) as the multiplier. Proved: the result is [effective k]P for every k and P, which is [k]P when k < 256, and is wrong on the base point for every k with 256 <= k < n."
  },
  {
   "property": "C51",
   "status": "partial",
   "theorems": [
    "Husk.C51_same_key_iff",
    "Husk.C51_not_distinct",
    "Husk.C51_distinct_below_256_partial",
    "Husk.C51_key_space"
   ],
   "note": "False of the code as stated (C51_not_distinct: 256 and 512 have the same key). Proved: exactly when two secrets share a key (C51_same_key_iff) and that there are exactly 2^56 public keys (C51_key_space). Holds for secrets below 256."
  },
  {
   "property": "C52",
   "status": "proved",
   "theorems": [
    "Husk.C52_keys",
    "Husk.C52_agreement"
   ],
   "note": "For every server point of the curve, every random script and both modes. Infinity is given the bytes of (0,0) as the code does."
  },
  {
   "property": "C53",
   "status": "partial",
   "theorems": [
    "Husk.C53_shape",
    "Husk.C53_valid_partial",
    "Husk.C53_not_valid"
   ],
   "note": "False of the code as stated (C53_not_valid: scalar 256 gives 04||0..0). Proved: the shape always, and validity unless the seven scalar bytes used are all zero."
  },
  {
   "property": "C54",
   "status": "partial",
   "theorems": [
    "Husk.C54_release",
    "Husk.C54_debug_partial",
    "Husk.C54_debug_exact",
    "Husk.C54_debug_panics",
    "Husk.C54_returns"
   ],
   "note": "Proved for release builds. False in debug builds (C54_debug_panics: x-coordinate 2^256-1); C54_debug_exact says for which data exactly (3x >= 2^256 + 2p)."
  },
  {
   "property": "C55",
   "status": "proved",
   "theorems": [
    "Husk.C55_first_below_p",
    "Husk.C55_only",
    "Husk.C55_reduced"
   ],
   "note": "Both directions: what is returned and that nothing else is."
  },
  {
   "property": "C56",
   "status": "proved",
   "theorems": [
    "Husk.C56_arrays",
    "Husk.C56_be_digits",
    "Husk.C56_read_be",
    "Husk.C56_read_le",
    "Husk.C56_write",
    "Husk.C56_be_u16_roundtrip"
   ],
   "note": "arrays, reads and writes; any chunking of the transport"
  },
  {
   "property": "C57",
   "status": "partial",
   "theorems": [
    "Husk.C57_curve_ignored",
    "Husk.C57_not_only_offered",
    "Husk.C57_named_curve_only_partial"
   ],
   "note": "False of the code (C57_not_only_offered): the named curve is decoded and ignored. Proved: other curve types than named_curve are refused."
  },
  {
   "property": "C58",
   "status": "partial",
   "theorems": [
    "Husk.C58_trailing_ignored",
    "Husk.C58_not_refused"
   ],
   "note": "False of the code (C58_not_refused): trailing bytes are ignored, whatever they are (C58_trailing_ignored)."
  },
  {
   "property": "C59",
   "status": "proved",
   "theorems": [
    "Husk.C59_hello_refused"
   ],
   "note": "All values, fragmentations and continuations; a transport without write errors (then the error is IoFailure). Compression codes above 1 already fail to decode."
  },
  {
   "property": "C60",
   "status": "proved",
   "theorems": [
    "Husk.C60_not_a_hello"
   ],
   "note": "All messages that decode and are not a ServerHello, all fragmentations and continuations; a transport without write errors."
  },
  {
   "property": "C61",
   "status": "partial",
   "theorems": [
    "Husk.C61_causes_partial",
    "Husk.C61_short_records_partial",
    "Husk.C61_no_hang",
    "Husk.C61_debug_panics",
    "Husk.C61_overlong_panics"
   ],
   "note": "False of the code: C61_debug_panics (x-coordinate with 3x >= 2^256 + 2p in ServerKeyExchange, debug builds) and C61_overlong_panics (protected record of more than 2^14 bytes in place of Finished, all builds). Proved: these are the only causes of a panic (C61_causes_partial), without records above 2^14+16 bytes there is none in release builds, and it never hangs when the generator delivers."
  },
  {
   "property": "C62",
   "status": "proved",
   "theorems": [
    "Husk.C62_flight",
    "Husk.C62_early",
    "Husk.C62_no_change",
    "Husk.C62_early_data",
    "Husk.C62_finished",
    "Husk.C62_before_finished"
   ],
   "note": "Positions: the four messages of the flight, ChangeCipherSpec, Finished. The messages before that are those of a conforming server; a transport without write errors (then the error is IoFailure)."
  },
  {
   "property": "C63",
   "status": "partial",
   "theorems": [
    "Husk.C63_flight_partial",
    "Husk.C63_finished_partial",
    "Husk.C63_alert_lost"
   ],
   "note": "False in place of the ChangeCipherSpec, where UnexpectedMessage is returned (C63_alert_lost). Proved at all other positions."
  },
  {
   "property": "C64",
   "status": "partial",
   "theorems": [
    "Husk.C64_invalid_key_partial",
    "Husk.C64_curve_type"
   ],
   "note": "False for x-coordinates that are not below p: release builds accept them (C48_accepts_non_canonical, C48_release_accepts_off_curve), debug builds panic (C61_debug_panics). Proved for every other encoding that is not a point."
  },
  {
   "property": "C65",
   "status": "proved",
   "theorems": [
    "Husk.C65_reader",
    "Husk.C65_flight",
    "Husk.C65_change",
    "Husk.C65_finished"
   ],
   "note": "The messages before that are those of a conforming server; a transport without write errors."
  },
  {
   "property": "C66",
   "status": "proved",
   "theorems": [
    "Husk.C66_received",
    "Husk.C66_delivered"
   ],
   "note": "Histories up to the first panic. With records made by the server in order, everything is delivered: C66_delivered."
  },
  {
   "property": "C67",
   "status": "proved",
   "theorems": [
    "Husk.C67_independent",
    "Husk.C67_wire"
   ],
   "note": "C67_wire: a transport without write errors and fewer than 2^64 - 1 records."
  },
  {
   "property": "C68",
   "status": "partial",
   "theorems": [
    "Husk.C68_stop_partial",
    "Husk.C68_number_reused"
   ],
   "note": "False when a write fails inside a record and the application writes again: the number is only advanced after the record has gone out (C68_number_reused shows the plaintext xor on the wire). Proved for applications that stop writing at the first error, over any transport: C68_stop_partial."
  },
  {
   "property": "C69",
   "status": "proved",
   "theorems": [
    "Husk.C69_genuine_or_forged"
   ],
   "note": "Integrity of the received stream reduced to forging a record; that forging is hard is an assumption about the cipher and is not stated. The owner's records are a parameter, so the claim holds for whatever the owner has sealed."
  },
  {
   "property": "C70",
   "status": "partial",
   "theorems": [
    "Husk.C70_tampering_undetected",
    "Husk.C70_view_partial"
   ],
   "note": "False of the code: bytes after the extension block of ServerHello (inside the message) are dropped by the decoder, and the client hashes the re-encoded message, so any such bytes can be inserted in transit; the handshake completes on both sides with the same keys (C70_tampering_undetected, for every conforming server and every insertion that fits). C70_view_partial: up to those bytes the transcripts agree (all of the client's random and point and of the server's flight), or the pair is a collision of the Finished computation."
  },
  {
   "property": "C71",
   "status": "proved",
   "theorems": [
    "Husk.C71_chunking"
   ],
   "note": "C71_chunking, by showing that every reader step respects equality of streams."
  },
  {
   "property": "C72",
   "status": "partial",
   "theorems": [
    "Husk.C72_keys_enumerable",
    "Husk.C72_two_halves",
    "Husk.C72_confined",
    "Husk.C72_shared_secret_partial"
   ],
   "note": "False of the code (C72_confined): in every completed session there is exactly one e < 2^56 with e*G the client's point on the wire, and the session keys are the function candidateKeys of e and public values (C72_keys_enumerable). The search splits into two halves of 2^28 points (C72_two_halves). C72_shared_secret_partial: the premaster secret is the Diffie-Hellman value of the two points on the wire."
  },
  {
   "property": "C73",
   "status": "proved",
   "theorems": [
    "Husk.C73_bounded"
   ],
   "note": "C73_bounded, by a Hoare logic over the reader (Post). The bound concerns handshake_buffer and TlsClient.buf, the two buffers kept between calls; the buffer of one record is at most 2^14 + 2048 bytes and is not kept."
  },
  {
   "property": "C74",
   "status": "partial",
   "theorems": [
    "Husk.C74_asks_again",
    "Husk.C74_not_prompt",
    "Husk.C74_full_buffer_partial",
    "Husk.C74_buffered_partial"
   ],
   "note": "False of the code: read loops until its buffer is full (C74_not_prompt); with data shorter than the buffer it always goes back to the transport, and a stop it finds there is used up and not reported (C74_asks_again, for all data and all longer buffers). A transport that blocks blocks read with the data already taken. What holds: C74_full_buffer_partial (buffers no longer than the data), C74_buffered_partial (data already decrypted is returned without touching the transport)."
  },
  {
   "property": "C75",
   "status": "partial",
   "theorems": [
    "Husk.C75_versions_ignored",
    "Husk.C75_not_checked",
    "Husk.C75_protected_partial"
   ],
   "note": "False of the code: C75_not_checked (record layer), C75_versions_ignored (whole sessions: altering the version bytes of any records up to ChangeCipherSpec changes nothing that is returned or sent, and later calls are the same). C75_protected_partial: in protected records the version is authenticated; taking a record with an altered version needs a Poly1305 collision under the key of that record."
  },
  {
   "property": "C76",
   "status": "proved",
   "theorems": [
    "Husk.C76_release_as_debug",
    "Husk.C76_hypothesis_needed"
   ],
   "note": "C76_release_as_debug, by a relational logic over the two modes (Proofs/Pair, Proofs/Modes). C76_hypothesis_needed: a server that makes a debug build panic and not a release build."
  },
  {
   "property": "C77",
   "status": "proved",
   "theorems": [
    "Husk.C77_tags_uniform",
    "Husk.C77_forgery_bound",
    "Husk.C77_attempts",
    "Husk.C77_decrypt_iff",
    "Husk.C77_records"
   ],
   "note": "C77_tags_uniform, C77_forgery_bound, C77_attempts, C77_decrypt_iff, C77_records: the implementation computes a polynomial over the field of 2^130 - 5 elements (prime by Pratt certificates), different messages give different polynomials, and a polynomial has few roots. That the one-time keys ChaCha20 produces look uniform is an assumption about the cipher and is not stated."
  },
  {
   "property": "C78",
   "status": "proved",
   "theorems": [
    "Husk.C78_perfect_secrecy",
    "Husk.C78_calls",
    "Husk.C78_wire"
   ],
   "note": "C78_wire (from C67_wire and the equality of the record protection with one that takes the block function as a parameter, Spec/Blocks), C78_perfect_secrecy (bijection between the block choices: add the difference of the texts), C78_calls. That the blocks of ChaCha20 under a secret key cannot be told from random ones is an assumption about the cipher and is not stated."
  },
  {
   "property": "C79",
   "status": "proved",
   "theorems": [
    "Husk.C79_wire_length",
    "Husk.C79_lengths_show"
   ],
   "note": "C79_wire_length; C79_lengths_show: whatever the keys, the sum can be read off the wire."
  },
  {
   "property": "C80",
   "status": "proved",
   "theorems": [
    "Husk.C80_real",
    "Husk.C80_forgery_bound",
    "Husk.C80_session"
   ],
   "note": "C80_forgery_bound (C77 for one record; independence of the one-time keys of the other records by an exchange argument; union over positions and numbers), C80_real (with the blocks of ChaCha20 it is the forgery of C69), C80_session (with C69)."
  },
  {
   "property": "C81",
   "status": "partial",
   "theorems": [
    "Husk.C81_not_ended",
    "Husk.C81_stops_partial"
   ],
   "note": "False of the code (C81_not_ended): any number of refused records is survived, the number is not used up, no alert is sent and the next read delivers. Proved: the read that meets a refused record returns at once without delivering anything of it (C81_stops_partial)."
  },
  {
   "property": "C82",
   "status": "partial",
   "theorems": [
    "Husk.C82_sent_after_close",
    "Husk.C82_close_partial"
   ],
   "note": "False of the code (C82_sent_after_close): in every session a write after close succeeds and puts its records behind the alert. Proved: close sends exactly one record, and nothing more is sent while only read and flush follow (C82_close_partial)."
  },
  {
   "property": "C83",
   "status": "partial",
   "theorems": [
    "Husk.C83_not_bounded",
    "Husk.C83_data_partial"
   ],
   "note": "False of the code (C83_not_bounded): for every n there is a stream of n empty records of a connected peer that a single read takes without returning. Proved: at most n records with content are taken (C83_data_partial)."
  },
  {
   "property": "C84",
   "status": "proved",
   "theorems": [
    "Husk.C84_compare_constant_time",
    "Husk.C84_same_result"
   ],
   "note": "Observations in the sense of Base/Trace (branches, positions, lengths); what the compiler makes of the code is outside the model."
  },
  {
   "property": "C85",
   "status": "partial",
   "theorems": [
    "Husk.C85_release_partial",
    "Husk.C85_same_result",
    "Husk.C85_debug_leaks",
    "Husk.C85_debug_leaks_returns",
    "Husk.C85_full_claim_false",
    "Husk.C85_statement_release"
   ],
   "note": "Proved for release builds (for every scalar and every peer point). False for debug builds: the debug_assert of reduce_once and sub short-circuits on secret data; C85_debug_leaks gives two scalars whose observations differ, for every peer point."
  },
  {
   "property": "C86",
   "status": "proved",
   "theorems": [
    "Husk.C86_encrypt_constant_time",
    "Husk.C86_decrypt_shows_the_verdict",
    "Husk.C86_same_result"
   ],
   "note": "Observations in the sense of Base/Trace. The overflow checks of debug builds are not observations (they never fail: C35, C36)."
  },
  {
   "property": "C87",
   "status": "proved",
   "theorems": [
    "Husk.C87_sha256_constant_time",
    "Husk.C87_hmac_constant_time",
    "Husk.C87_prf_constant_time",
    "Husk.C87_same_result"
   ],
   "note": "Observations in the sense of Base/Trace."
  },
  {
   "property": "C88",
   "status": "partial",
   "theorems": [
    "Husk.C88_random_scalar",
    "Husk.C88_rejections",
    "Husk.C88_compute_keys_partial",
    "Husk.C88_same_result",
    "Husk.C88_debug_leaks"
   ],
   "note": "The random scalar: proved for both build modes (C88_random_scalar, C88_rejections). The whole of compute_keys: proved for release builds; false for debug builds by C85 (C88_debug_leaks, for every message that is accepted)."
  },
  {
   "property": "C89",
   "status": "proved",
   "theorems": [
    "Husk.C89_code_points",
    "Husk.C89_bounds",
    "Husk.C89_written",
    "Husk.C89_read",
    "Husk.C89_accepted",
    "Husk.C89_alert",
    "Husk.C89_key_exchange",
    "Husk.C89_key_exchange_accepted"
   ],
   "note": "Spec/Wire.lean writes every structure field by field, with its own numbers, prefixes and bounds. C89_bounds: constructors and decoder give exactly the messages within these bounds; C89_written, C89_read, C89_accepted; C89_code_points; C89_alert, C89_key_exchange, C89_key_exchange_accepted."
  },
  {
   "property": "C90",
   "status": "proved",
   "theorems": [
    "Husk.C90_items",
    "Husk.C90_messages",
    "Husk.C90_broken",
    "Husk.C90_broken_message",
    "Husk.C90_chunking",
    "Husk.C90_total",
    "Husk.C90_handshake",
    "Husk.C90_alert",
    "Husk.C90_key_exchange",
    "Husk.C90_one_message_only"
   ],
   "note": "All 29 item types, by a simulation between reading in memory and reading from a transport. C90_one_message_only shows that two handshake messages cannot be read one after the other from the same transport (the reader insists on the end of the input)."
  },
  {
   "property": "C91",
   "status": "partial",
   "theorems": [
    "Husk.C91_items_partial",
    "Husk.C91_handshake",
    "Husk.C91_transfer",
    "Husk.C91_half_written"
   ],
   "note": "False in one point: a hello that names UnknownCipherSuite is refused only after its header, version, random and session id have been sent (C91_half_written). Everything else is proved for all 29 item types."
  },
  {
   "property": "C92",
   "status": "partial",
   "theorems": [
    "Husk.C92_cut_looks_closed",
    "Husk.C92_not_detected",
    "Husk.C92_prefix_partial",
    "Husk.C92_session_cut"
   ],
   "note": "False of the code: for every number of bytes let through, all reads return what they return when the peer sent the data of the whole records among them and closed properly (C92_cut_looks_closed); every record boundary can be chosen (C92_not_detected). Proved: what is handed out is a prefix of the data, without panics (C92_prefix_partial). C92_session_cut: the same for whole sessions with a conforming server, for every number of bytes after the handshake and all histories of calls."
  },
  {
   "property": "C93",
   "status": "proved",
   "theorems": [
    "Husk.C93_bounded"
   ],
   "note": "Fewer than 2^31 bytes (the constant proved is 872526010), by an amortised argument over read_record, read_message and the nine messages of the handshake. Concerns data taken, not time: a server that sends nothing makes the transport's read block, which the model does not describe."
  },
  {
   "property": "C94",
   "status": "partial",
   "theorems": [
    "Husk.C94_wire",
    "Husk.C94_number_reused",
    "Husk.C94_debug_panics",
    "Husk.C94_below_partial"
   ],
   "note": "False in release builds: write_count += 1 wraps and the 2^64-th write after a record succeeds with that record's number, key and nonce (C94_number_reused); C94_wire gives the wire of any history. In debug builds the write using the last number panics after its record has been sent (C94_debug_panics). C94_below_partial: below 2^64 records no nonce is repeated. Transports without write errors; with errors see C68."
  },
  {
   "property": "C95",
   "status": "partial",
   "theorems": [
    "Husk.C95_read_to_end_partial",
    "Husk.C95_read_exact",
    "Husk.C95_past_close",
    "Husk.C95_session_partial"
   ],
   "note": "read_exact: proved (C95_read_exact). read_to_end is false of the code (C95_past_close): it goes on past close_notify, with all buffer sizes, and returns only when the transport ends. C95_read_to_end_partial, C95_session_partial: exactly the data if the connection ends after close_notify. std's two loops are modelled from their documentation."
  },
  {
   "property": "C96",
   "status": "proved",
   "theorems": [
    "Husk.C96_session"
   ],
   "note": "A complete functional specification of such sessions. The server may end with or without close_notify, inside a record, or with a transport error (then see C92)."
  },
  {
   "property": "C97",
   "status": "proved",
   "theorems": [
    "Husk.C97_example"
   ],
   "note": "The connected stream is given; DNS, TCP and from_utf8_lossy are not modelled. That the server is the one named is not checked by anything (C30)."
  },
  {
   "property": "C98",
   "status": "partial",
   "theorems": [
    "Husk.C98_below_partial",
    "Husk.C98_release",
    "Husk.C98_debug_panics",
    "Husk.C98_reused",
    "Husk.C98_pieces"
   ],
   "note": "False as stated. The comment at chacha20.rs:94 allows 2^70 bytes under one nonce (the bound of the 64-bit-counter variant), but the counter has 32 bits: in release builds every history succeeds and the counter goes round (C98_release), so bytes at a distance of 2^38 are encrypted with the same key stream and the ciphertext tells their xor (C98_reused); in debug builds the call that uses block 2^32-1 panics (C98_debug_panics). Proved: below 2^32 blocks every history follows RFC 8439 with distinct states (C98_below_partial), and pieces that are multiples of 64 bytes compose (C98_pieces). A TLS record is far below the limit."
  },
  {
   "property": "C99",
   "status": "proved",
   "theorems": [
    "Husk.C99_channel"
   ],
   "note": "C99_channel: sender and receiver run one after the other, so it is about the bytes, not about timing. Allowed says which histories: messages a peer may send (Sendable, as in C09), data only after the keys (otherwise write_application_data panics by its own check), keys set once (otherwise set_encryptor panics by its own assertion)."
  },
  {
   "property": "C100",
   "status": "partial",
   "theorems": [
    "Husk.C100_hello_kept",
    "Husk.C100_flush_keeps",
    "Husk.C100_not_flushed",
    "Husk.C100_inner_flush_partial"
   ],
   "note": "False of the code: flush returns Ok without touching the transport and nothing else flushes it. C100_hello_kept: when the client begins to wait for ServerHello, all 74 bytes of the ClientHello record are still in any buffer of more than 74 bytes, so with a server that waits for it the handshake stands still. C100_flush_keeps, C100_not_flushed: in every session nothing is delivered, also after flush, while it fits the buffer. C100_inner_flush_partial: flushing the transport itself through client.writer() delivers exactly what was written. BufWriter is modelled from its documentation."
  },
  {
   "property": "C101",
   "status": "partial",
   "theorems": [
    "Husk.C101_unasked",
    "Husk.C101_repeated",
    "Husk.C101_compressed_only",
    "Husk.C101_not_checked",
    "Husk.C101_well_formed_partial"
   ],
   "note": "False of the code: an extension of any type other than the three, with any content, is accepted (C101_unasked); so is the same one up to 16383 times (C101_repeated), and a list of point formats without `uncompressed` (C101_compressed_only). Proved, for whatever the server sends: when the handshake completes the extension part is absent or a well-formed block, an extension of one of the three types has the content prescribed for it, and the extensions do not change the keys."
  },
  {
   "property": "C102",
   "status": "proved",
   "theorems": [
    "Husk.C102_accepts",
    "Husk.C102_exact",
    "Husk.C102_record_versions"
   ],
   "note": "C102_exact is an equivalence between success of `new` and the predicate Acceptable on the stream (which mentions the model only for the ECDHE computation of C53); C102_accepts also gives what is left afterwards; C102_record_versions is a consequence. Writing must not fail (the other case is C32)."
  },
  {
   "property": "C103",
   "status": "partial",
   "theorems": [
    "Husk.C103_cause",
    "Husk.C103_io_partial",
    "Husk.C103_mac",
    "Husk.C103_overflow",
    "Husk.C103_alert",
    "Husk.C103_parameter",
    "Husk.C103_decrypt",
    "Husk.C103_internal_partial",
    "Husk.C103_decode",
    "Husk.C103_not_io",
    "Husk.C103_not_internal"
   ],
   "note": "Every error returned is traced to its cause (C103_cause), and each kind but two says exactly what the claim says. False for IoFailure (C103_not_io: a ServerHello whose body has at most 34 bytes is reported as a failure of the transport, no alert is sent and the rest of the stream is not read, although the transport never fails) and for InternalError (C103_not_internal: a ServerHelloDone with one byte too many); the two _partial theorems say what these kinds do mean."
  },
  {
   "property": "C104",
   "status": "proved",
   "theorems": [
    "Husk.C104_write",
    "Husk.C104_read",
    "Husk.C104_close",
    "Husk.C104_calls_constant_time",
    "Husk.C104_same_result",
    "Husk.C104_established"
   ],
   "note": "traced copies of the record layer and of the client's calls, proved to have the results of the model (C104_same_result); relational proof over two executions. The server's stream is genuine application data and the transport delivers all of it before it ends or fails. Serialisation of alerts and parsing of handshake messages show nothing here."
  },
  {
   "property": "C105",
   "status": "proved",
   "theorems": [
    "Husk.C105_second_flight",
    "Husk.C105_check",
    "Husk.C105_same_result",
    "Husk.C105_verdict"
   ],
   "note": "traced copies of the computations with the results of the model (C105_same_result); relational proof over two executions, the Finished record by the writer's part of C104. Reading the server's last flight is not compared (its record layer is C104's, with application data)."
  },
  {
   "property": "C106",
   "status": "proved",
   "theorems": [
    "Husk.C106_set",
    "Husk.C106_writer_keys",
    "Husk.C106_reader_keys",
    "Husk.C106_writer_second_panics",
    "Husk.C106_reader_second_panics",
    "Husk.C106_no_clear_data"
   ],
   "note": "All public calls of both types are in the histories; the result of a failed call is dropped and the next call runs on the state it left."
  },
  {
   "property": "C107",
   "status": "proved",
   "theorems": [
    "Husk.C107_message",
    "Husk.C107_outcome",
    "Husk.C107_unique",
    "Husk.C107_connected"
   ],
   "note": "C107_outcome is an equivalence: the result of `new` is x if and only if `Ends \u2026 x`, where `Ends` is an inductive relation over what comes (`Comes`) on the stream; C107_unique says that the relation has exactly one value, C107_connected is the case of success, C107_message the same for a single message at any time. Panics are included: a record that opens to more than 2^14 bytes, and a debug build's key computation (C48, C54, C61). The random generator must give at least the 32 bytes of the client random (else `fill_bytes` does not return, C61) and the stream be shorter than 2^64 bytes."
  },
  {
   "property": "C108",
   "status": "proved",
   "theorems": [
    "Husk.C108_arrives",
    "Husk.C108_reads",
    "Husk.C108_session"
   ],
   "note": "`Arrives` and `HandsOut` are relations on the bytes the transport gives (through `Comes` of C107). C108_arrives: `Arrives` has exactly one value for every reader with keys (the state after a crash is left open). C108_reads: the results of any history of calls are what `HandsOut` says, and nothing else. C108_session: the same from `TlsClient::new` on, for a stream on which the handshake completes. Hypothesis: fewer than 2^64 bytes and records."
  },
  {
   "property": "C109",
   "status": "proved",
   "theorems": [
    "Husk.C109_calls",
    "Husk.C109_session",
    "Husk.C109_unique"
   ],
   "note": "`Behaves` is a relation on what arrives (C108), the faults of the transport's writes and the calls; keys and cipher are the specification's. C109_calls: for any client with keys the results and the bytes sent are what `Behaves` says, and nothing else; C109_unique: `Behaves` has exactly one value; C109_session: the same from any successful `TlsClient::new` on, over any transport. Hypotheses: fewer than 2^64 bytes delivered and fewer than 2^64 records written."
  },
  {
   "property": "C110",
   "status": "proved",
   "theorems": [
    "Husk.C110_program",
    "Husk.C110_unique"
   ],
   "note": "`Plays` is a relation on the transport, the random bytes and the calls, built from C107's `Comes`, C108's `Arrives` and C109's `Behaves`; keys, cipher and encodings are the specification's. C110_program: the program's results and bytes are what `Plays` says, and nothing else; C110_unique: `Plays` has exactly one value. Hypotheses: 32 random bytes are there for the ClientHello, fewer than 2^64 - 1 bytes are delivered and fewer than 2^64 - 1 records are written."
  },
  {
   "property": "C111",
   "status": "proved",
   "theorems": [
    "Husk.C111_write_all",
    "Husk.C111_refines",
    "Husk.C111_slow",
    "Husk.C111_program"
   ],
   "note": "`Model/Sock` writes the functions of TlsWriter and TlsClient down again over a transport that answers single `write` calls, with std's loop for `write_all`. C111_write_all: what a `write_all` does; C111_refines: every program over such a transport is one over the transport of `Model/Transport`, with the faults computed by `faultsOf`, so that the other claims carry over; C111_program: with C110; C111_slow: transports without failures are indistinguishable."
  },
  {
   "property": "C112",
   "status": "partial",
   "theorems": [
    "Husk.C112_same_result",
    "Husk.C112_handshake_constant_time_partial",
    "Husk.C112_session_partial",
    "Husk.C112_same_server_partial",
    "Husk.C112_debug_leaks",
    "Husk.C112_only_release",
    "Husk.C112_kind_seen",
    "Husk.C112_hello_seen"
   ],
   "note": "release builds: relational proof over two executions of the traced handshake, from the ClientHello to the check of the server's Finished, joined with C104 for the calls after it. The full claim (both build profiles) does not hold: debug builds tell the secrets 1 and 2 apart whatever the server sends (C112_debug_leaks, C112_only_release). Not observed: parsing and serialising handshake messages beyond kinds and lengths. Handshakes that fail are C114."
  },
  {
   "property": "C113",
   "status": "proved",
   "theorems": [
    "Husk.C113_sent",
    "Husk.C113_received"
   ],
   "note": "A caller who replaces a field by another TlsReader or TlsWriter, or writes to the transport through get_mut, is outside. A direct call of read_handshake or read_change_cipher_spec that finds application data drops it (part of the statement: the failed call hands out nothing). A TlsClient::read that panics loses what it had read; histories with such a call are excluded from the receiving part."
  },
  {
   "property": "C114",
   "status": "proved",
   "theorems": [
    "Husk.C114_same_result",
    "Husk.C114_failed",
    "Husk.C114_in_clear"
   ],
   "note": "relational proof over two executions of the traced TlsClient::new: each part of the handshake is shown to end alike, then the alert; the same erasure theorem as elsewhere ties the traced call to the model's. Observations as for C112 (parsing and serialising message bodies beyond kinds and lengths is not observed). A Finished that is properly protected but wrong needs the server's keys and is outside the statement."
  },
  {
   "property": "C115",
   "status": "proved",
   "theorems": [
    "Husk.C115_sent",
    "Husk.C115_received",
    "Husk.C115_from_tcp"
   ],
   "note": "C115_sent, C115_received by induction over histories whose states are compared before and after each call, from the lemmas per call of C113; C115_from_tcp by definition of the model (a TcpStream is its two directions and whether try_clone succeeds). A handed out transport is any function on the model's transport."
  },
  {
   "property": "C116",
   "status": "proved",
   "theorems": [
    "Husk.C116_tries",
    "Husk.C116_count",
    "Husk.C116_session"
   ],
   "note": "C116_tries (a union over the tries of the bound for one record), C116_count, C116_session: the client's walk through its stream is followed record by record (`Walks`: taken, refused or passed over, nothing left out) and compared with the walk that knows only the records seen (`tries`). A refused record does not end the connection (C81), so the number of tries is bounded by the length of the stream only."
  },
  {
   "property": "C117",
   "status": "partial",
   "theorems": [
    "Husk.C117_same_read",
    "Husk.C117_one_byte_reads",
    "Husk.C117_false",
    "Husk.C117_call_partial",
    "Husk.C117_large_buffers_partial"
   ],
   "note": "False of the code, for every constant up to 4000 (C117_false): each call ends with self.buf[necessary..].to_vec(), which copies all that is left, so one-byte reads of a record of n bytes move exactly n + n(n+1)/2 bytes (C117_one_byte_reads, for all records of all sessions with a conforming server); for a full record that is more than 8000 moves per byte. Proved instead, for every state and whatever arrives: a call moves at most twice the bytes delivered and twice those left behind (C117_call_partial); with buffers of at least one record each byte is moved at most 4 times (C117_large_buffers_partial). The counting program returns what read returns (C117_same_read)."
  },
  {
   "property": "C118",
   "status": "partial",
   "theorems": [
    "Husk.C118_same_handshake",
    "Husk.C118_told_partial",
    "Husk.C118_distinct",
    "Husk.C118_change_lost",
    "Husk.C118_change_unknown_partial",
    "Husk.C118_named",
    "Husk.C118_false"
   ],
   "note": "False of the code (C118_false): read_change_cipher_spec drops the alert, so every alert the library knows gives, in place of the ChangeCipherSpec, the kind UnexpectedMessage and the same text 'expected ChangeCipherSpec, get alert' (C118_change_lost). That is where a server reports that it does not accept the client's key exchange or Finished. Proved: at every other point the error tells the alert (C118_told_partial), unknown alerts are shown at the ChangeCipherSpec too (C118_change_unknown_partial), different alerts are told of differently (C118_distinct), and AlertReceived always names an alert that came (C118_named). The model with texts is the model of the handshake (C118_same_handshake)."
  },
  {
   "property": "C119",
   "status": "partial",
   "theorems": [
    "Husk.C119_prefix_partial",
    "Husk.C119_short_partial",
    "Husk.C119_stop_partial",
    "Husk.C119_twice",
    "Husk.C119_false"
   ],
   "note": "False: a buffer of more than 16384 bytes goes out as several records, and a failure after the first leaves that one delivered (C119_false). C119_twice: for every such buffer and every state, over a transport that refuses once, the call fails, the call made again returns Ok, and the peer gets the first 16384 bytes twice. Proved partly: what the peer gets is always the beginning of the buffer, cut at a multiple of 16384, and all of it only if the transport has taken every record whole (C119_prefix_partial); of a buffer of one record it gets nothing unless the transport took the whole record and reports an error all the same (C119_short_partial). C119_stop_partial: a program that stops at the first error delivers the buffers of all calls that returned Ok and then a beginning of the failed one, nothing twice or out of order; without an error, everything."
  },
  {
   "property": "C120",
   "status": "partial",
   "theorems": [
    "Husk.C120_passage",
    "Husk.C120_fits_partial",
    "Husk.C120_too_long",
    "Husk.C120_false"
   ],
   "note": "False (C120_false): `Record` has public fields, so the limit of `Record::new` need not hold, and write_record checks only the encrypted length. C120_passage says exactly what happens, by length: up to 2^14 bytes the record arrives (C120_fits_partial); with a key, from 2^14+1 to 2^14+2032 bytes it is sent and the reader panics, above that write_record panics; without a key, up to 2^14+2048 bytes it is sent and the reader refuses it with RecordOverflow, above that write_record panics. C120_too_long: no longer record arrives, and none is refused with an error by the writer. The client itself only sends records of at most 2^14 bytes."
  },
  {
   "property": "C121",
   "status": "partial",
   "theorems": [
    "Husk.C121_disturbs",
    "Husk.C121_without_partial",
    "Husk.C121_before_finished",
    "Husk.C121_false"
   ],
   "note": "False at every position and for every interjection (C121_disturbs, C121_false): a HelloRequest ends the handshake with UnexpectedMessage; a warning ends it with AlertReceived, and in place of the ChangeCipherSpec with UnexpectedMessage; a protected warning before the Finished ends it with AlertReceived (C121_before_finished). Without the interjection the handshake with the same server, records and transport is completed (C121_without_partial). After the handshake both make `read` panic (C24_alert_panics, C24_handshake_panics)."
  },
  {
   "property": "C122",
   "status": "proved",
   "theorems": [
    "Husk.C122_hello",
    "Husk.C122_flight",
    "Husk.C122_completes"
   ],
   "note": "C122_hello: what new sends begins with the ClientHello, whatever can be read, or nothing. C122_flight: with the server's first flight come and anything or nothing after it, what new sends begins with the whole of both flights of the client. C122_completes: against any server that holds back each of its flights until it has the client's (Answers), the conversation (talk) is complete after two turns. For a transport that keeps small writes in a buffer this is false, since nothing is flushed: C100_hello_kept. The server is taken to accept the client's point, as in C29."
  },
  {
   "property": "C123",
   "status": "proved",
   "theorems": [
    "Husk.C123_sent",
    "Husk.C123_result",
    "Husk.C123_message",
    "Husk.C123_read",
    "Husk.C123_read_short",
    "Husk.C123_conversation"
   ],
   "note": "C123_sent: what new has sent on a stream is the beginning of what it sends on any continuation of it. C123_result: with any result but an I/O error the continuation changes nothing and is left unread. C123_message: the same for TlsReader::read_message. C123_read: the same for a read that fills its buffer. C123_read_short: one that does not has returned the beginning of what it returns when more comes, if that is not a panic (C24). C123_conversation: in the conversation of C122 with any server that does not take back what it has sent, the client does not either. Want of bytes is the end of the transport's script in the model, where a real transport would block."
  },
  {
   "property": "C124",
   "status": "proved",
   "theorems": [
    "Husk.C124_cut",
    "Husk.C124_sent",
    "Husk.C124_needed",
    "Husk.C124_eof_or_error"
   ],
   "note": "C124_cut: the result and that what was sent is the beginning of the client's part of the handshake. C124_sent: the ClientHello at least, and all of it once the first flight has come. C124_needed: for any stream and any result, new without the last thing it took ends in an I/O error. C124_eof_or_error: for any stream, an error, whatever comes after it, is the same as end of file there. After the handshake it is otherwise: a cut looks like a close (C92). The server is taken to accept the client's point, as in C29; the transport on the writing side works."
  },
  {
   "property": "C125",
   "status": "proved",
   "theorems": [
    "Husk.C125_new",
    "Husk.C125_socket",
    "Husk.C125_cut",
    "Husk.C125_complete",
    "Husk.C125_slow"
   ],
   "note": "C125_new: for a writer that fails after any number of bytes of any write. C125_socket: for a transport that takes writes in pieces, through the refinement of C111. C125_slow: no difference if it takes everything in the end. C125_complete: with Ok everything has been sent. C125_cut: with C124. Incoming streams of less than 2^64 - 1 bytes (else C61 does not exclude that the record counter runs over)."
  }
 ]
}