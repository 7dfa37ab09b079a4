{
 "C34": [
  "proved",
  "all keys, nonces, data and start blocks for which the 32-bit counter suffices; both build modes"
 ],
 "C35": [
  "proved",
  "no overflow up to 2^38-128 bytes (records have at most 2^14+2048); the bound is shown to be sharp"
 ],
 "C36": [
  "proved",
  "all messages and keys, both build modes"
 ],
 "C37": [
  "proved",
  "all keys, nonces, additional data, plaintexts up to 2^38-144 bytes"
 ],
 "C38": [
  "proved",
  "acceptance iff the tag is right; everything else is BadRecordMac"
 ],
 "C39": [
  "proved",
  "encrypt and decrypt equal the RFC 8439 construction; MAC input injective for lengths below 2^64"
 ],
 "C40": [
  "proved",
  "messages shorter than 2^61 bytes, functional specification written from FIPS 180-4"
 ],
 "C41": [
  "partial",
  "RFC 2104 for keys of at most 64 bytes; for longer keys the code panics (unimplemented!), proved as a theorem, so the full claim is false of the code"
 ],
 "C42": [
  "proved",
  "for any secret of at most 64 bytes and any sequence of request sizes"
 ],
 "C43": [
  "proved",
  "all slices of equal length, both build modes"
 ],
 "C56": [
  "proved",
  "arrays, reads and writes; any chunking of the transport"
 ],
 "C01": [
  "partial",
  "all nine kinds of message; excluded: Extension::Unknown carrying type 10, 11 or 13, which is constructible and does not round-trip (C01_shadowed_unknown)"
 ],
 "C02": [
  "proved",
  "all item types; every constructible value"
 ],
 "C03": [
  "partial",
  "holds unless bytes follow the extension block of a hello; C03_reserialise says exactly what is lost, C03_junk_lost is an accepted message whose re-serialisation differs"
 ],
 "C04": [
  "partial",
  "total and panic-free for all byte strings; trailing bytes are reported except after the extension block of a hello (C03_junk_lost)"
 ],
 "C05": [
  "proved",
  "all vector types"
 ],
 "C06": [
  "partial",
  "vector prefixes always right; extension and handshake lengths right inside an extension block / below 2^24 bytes; both truncations of the constructors are proved as theorems"
 ],
 "C07": [
  "proved",
  "all numbers of all eight enums, code points compared with the RFC lists"
 ],
 "C08": [
  "proved",
  "All suite ids: decoding, writing of any message, and a ServerHello with any fields, fragmentation and continuation."
 ],
 "C09": [
  "proved",
  "all message sequences, fragmentations and poll interleavings"
 ],
 "C10": [
  "proved",
  "all buffer contents"
 ],
 "C11": [
  "proved",
  "all histories of TlsReader calls and all cuttings of the stream; early end gives IoFailure"
 ],
 "C12": [
  "partial",
  "false inside a record: C12_loses_bytes proves, for every record and every position of the interruption, that the bytes before it are dropped; holds between records"
 ],
 "C13": [
  "proved",
  "all data, content types, IVs, counters with room; any matching cipher pair, instantiated with the crate's cipher, and without encryption"
 ],
 "C14": [
  "proved",
  "all lengths; C14_succeeds excludes a panic for the crate's cipher"
 ],
 "C15": [
  "partial",
  "holds for all histories in which only the last operation fails; C15_reuse_after_failure proves nonce reuse after a failed write for every key and IV"
 ],
 "C16": [
  "proved",
  "per record on both sides, and the k-th call of a whole history"
 ],
 "C17": [
  "proved",
  "every attacker script, any number of reads with errors in between, assuming the decryptor opens only what the peer sealed (Ideal)"
 ],
 "C18": [
  "partial",
  "header and plaintext lengths refused with RecordOverflow and nothing over-long is delivered; an encrypted record with an over-long plaintext panics (C18_encrypted_too_long_panics)"
 ],
 "C19": [
  "partial",
  "no panic without encryption for any bytes; with encryption the only panic is the over-long plaintext (C19_panic_exists); record counter below 2^64"
 ],
 "C20": [
  "partial",
  "ChangeCipherSpec exact; alerts accepted iff the first two bytes are known numbers; longer alerts are accepted too (C20_long_alert_accepted)"
 ],
 "C44": [
  "proved",
  "add, double, sub, mult, square, reduce_once and divide_by_2 are the field operations of GF(p) on canonical operands, in both build modes."
 ],
 "C45": [
  "proved",
  "inverse returns the field inverse of every non-zero element and 0 for 0; p is proved prime by Pratt certificates."
 ],
 "C46": [
  "proved",
  "compare and choose (integers and points) do what their names say for all operands."
 ],
 "C47": [
  "proved",
  "to_bytes/from_bytes are mutually inverse, big endian, and exactly the 32-byte strings are accepted."
 ],
 "C48": [
  "partial",
  "False of the code as stated (C48_not_exact): x or y >= p is accepted, in release an off-curve point is accepted, in debug some x >= p panic. Proved: all encoded curve points are accepted, malformed lengths/prefixes are rejected, exactness when x < p, in debug only points whose residues are on the curve are accepted, and the exact behaviour of debug builds (C48_debug_exact: panic iff 3x >= 2^256 + 2p)."
 ],
 "C49": [
  "proved",
  "add and double compute the group law of the Weierstrass curve for all operands including infinity and equal/opposite points; normalize gives the affine coordinates."
 ],
 "C50": [
  "partial",
  "False of the code as stated (C50_not_scalar_multiplication): mult_scalar uses only 56 bits of the scalar (bits 0-7 of limbs 0-6) as the multiplier. Proved: the result is [effective k]P for every k and P, which is [k]P when k < 256, and is wrong on the base point for every k with 256 <= k < n."
 ],
 "C51": [
  "partial",
  "False of the code as stated (C51_not_distinct: 256 and 512 have the same key). Proved: exactly when two secrets share a key (C51_same_key_iff) and that there are exactly 2^56 public keys (C51_key_space). Holds for secrets below 256."
 ],
 "C52": [
  "proved",
  "For every server point of the curve, every random script and both modes. Infinity is given the bytes of (0,0) as the code does."
 ],
 "C53": [
  "partial",
  "False of the code as stated (C53_not_valid: scalar 256 gives 04||0..0). Proved: the shape always, and validity unless the seven scalar bytes used are all zero."
 ],
 "C54": [
  "partial",
  "Proved for release builds. False in debug builds (C54_debug_panics: x-coordinate 2^256-1); C54_debug_exact says for which data exactly (3x >= 2^256 + 2p)."
 ],
 "C55": [
  "proved",
  "Both directions: what is returned and that nothing else is."
 ],
 "C57": [
  "partial",
  "False of the code (C57_not_only_offered): the named curve is decoded and ignored. Proved: other curve types than named_curve are refused."
 ],
 "C58": [
  "partial",
  "False of the code (C58_not_refused): trailing bytes are ignored, whatever they are (C58_trailing_ignored)."
 ],
 "C21": [
  "proved",
  "Ok(n) implies n = buf.len() and all records handed over (any encryptor); with the crate's cipher the only other result is an I/O error. Assumes the 64-bit record counter has room."
 ],
 "C22": [
  "proved",
  "For every single call, every history of calls (bytes collected by a call that panics are lost with it), and end to end from a peer's write over any transport cuts."
 ],
 "C23": [
  "partial",
  "False of the code (C23_delivered_after_close): data after close_notify is delivered by the same read call. Holds if the transport ends after close_notify."
 ],
 "C24": [
  "partial",
  "False of the code: every alert but close_notify, ChangeCipherSpec and every handshake message make read panic. Proved: read does not panic on anything else (garbage, damaged records, I/O failures)."
 ],
 "C25": [
  "partial",
  "False of the code: read never returns an error; a record with a bad tag looks like end of stream. Proved: a failure always shows as a short count and only a failure does."
 ],
 "C26": [
  "proved",
  "All servers and transports. Everything new sends is handshake, ChangeCipherSpec and alert records; a constructed client has both ciphers with keys and IVs, so write returns all or IoFailure."
 ],
 "C27": [
  "partial",
  "All accepted streams and fragmentations. The whole flight in order with version, suite, compression and the checked point (C27_flight_partial), determined by the stream (C27_unique). False of the code in one respect: the first bytes of Finished may come in clear before ChangeCipherSpec (C27_not_proper, C33_unprotected). In release a point with x-coordinate >= p is not known to be on the curve (C48)."
 ],
 "C28": [
  "proved",
  "Success implies the received value is the PRF value over the client's own transcript, for all streams. C28_mismatch: against a server that is right in everything else, any other 12-byte value gives DecryptError."
 ],
 "C29": [
  "partial",
  "Success, equal keys and application data both ways, for all values of the server, all cuts of its records and all draws of the client, with a transport without write errors. Missing: if the seven scalar bytes are all zero the client sends no point of the curve (C29_point), which a conforming server refuses, so the full claim is false (C29_not_always). Bytes after the extension block and optional messages such as CertificateRequest are not among the values of the server."
 ],
 "C30": [
  "partial",
  "False of the code as stated (C30_not_authenticated, for every notion of validity that excludes some server; C30_no_certificate: no certificate and an empty signature are accepted). Proved: only that the server knows the session keys."
 ],
 "C31": [
  "proved",
  "All randoms, servers and transports."
 ],
 "C32": [
  "proved",
  "All failing runs. If the transport fails while something is sent, a prefix of it is on the wire."
 ],
 "C33": [
  "partial",
  "False of the code as stated (C33_not_protected: 15 of the 16 bytes of Finished come in clear). Proved: the last byte is always protected, and all of it if nothing follows ServerHelloDone in clear."
 ],
 "C59": [
  "proved",
  "All values, fragmentations and continuations; a transport without write errors (then the error is IoFailure). Compression codes above 1 already fail to decode."
 ],
 "C60": [
  "proved",
  "All messages that decode and are not a ServerHello, all fragmentations and continuations; a transport without write errors."
 ],
 "C61": [
  "partial",
  "False of the code: C61_debug_panics (x-coordinate with 3x >= 2^256 + 2p in ServerKeyExchange, debug builds) and C61_overlong_panics (protected record of more than 2^14 bytes in place of Finished, all builds). Proved: these are the only causes of a panic (C61_causes_partial), without records above 2^14+16 bytes there is none in release builds, and it never hangs when the generator delivers."
 ],
 "C62": [
  "proved",
  "Positions: the four messages of the flight, ChangeCipherSpec, Finished. The messages before that are those of a conforming server; a transport without write errors (then the error is IoFailure)."
 ],
 "C63": [
  "partial",
  "False in place of the ChangeCipherSpec, where UnexpectedMessage is returned (C63_alert_lost). Proved at all other positions."
 ],
 "C64": [
  "partial",
  "False for x-coordinates that are not below p: release builds accept them (C48_accepts_non_canonical, C48_release_accepts_off_curve), debug builds panic (C61_debug_panics). Proved for every other encoding that is not a point."
 ],
 "C65": [
  "proved",
  "The messages before that are those of a conforming server; a transport without write errors."
 ],
 "C66": [
  "proved",
  "Histories up to the first panic. With records made by the server in order, everything is delivered: C66_delivered."
 ],
 "C67": [
  "proved",
  "C67_wire: a transport without write errors and fewer than 2^64 - 1 records."
 ],
 "C68": [
  "partial",
  "False when a write fails inside a record and the application writes again: the number is only advanced after the record has gone out (C68_number_reused shows the plaintext xor on the wire). Proved for applications that stop writing at the first error, over any transport: C68_stop_partial."
 ],
 "C69": [
  "proved",
  "Integrity of the received stream reduced to forging a record; that forging is hard is an assumption about the cipher and is not stated. The owner's records are a parameter, so the claim holds for whatever the owner has sealed."
 ],
 "C70": [
  "partial",
  "False of the code: bytes after the extension block of ServerHello (inside the message) are dropped by the decoder, and the client hashes the re-encoded message, so any such bytes can be inserted in transit; the handshake completes on both sides with the same keys (C70_tampering_undetected, for every conforming server and every insertion that fits). C70_view_partial: up to those bytes the transcripts agree (all of the client's random and point and of the server's flight), or the pair is a collision of the Finished computation."
 ],
 "C71": [
  "proved",
  "C71_chunking, by showing that every reader step respects equality of streams."
 ],
 "C72": [
  "partial",
  "False of the code (C72_confined): in every completed session there is exactly one e < 2^56 with e*G the client's point on the wire, and the session keys are the function candidateKeys of e and public values (C72_keys_enumerable). The search splits into two halves of 2^28 points (C72_two_halves). C72_shared_secret_partial: the premaster secret is the Diffie-Hellman value of the two points on the wire."
 ],
 "C73": [
  "proved",
  "C73_bounded, by a Hoare logic over the reader (Post). The bound concerns handshake_buffer and TlsClient.buf, the two buffers kept between calls; the buffer of one record is at most 2^14 + 2048 bytes and is not kept."
 ],
 "C74": [
  "partial",
  "False of the code: read loops until its buffer is full (C74_not_prompt); with data shorter than the buffer it always goes back to the transport, and a stop it finds there is used up and not reported (C74_asks_again, for all data and all longer buffers). A transport that blocks blocks read with the data already taken. What holds: C74_full_buffer_partial (buffers no longer than the data), C74_buffered_partial (data already decrypted is returned without touching the transport)."
 ],
 "C76": [
  "proved",
  "C76_release_as_debug, by a relational logic over the two modes (Proofs/Pair, Proofs/Modes). C76_hypothesis_needed: a server that makes a debug build panic and not a release build."
 ],
 "C75": [
  "partial",
  "False of the code: C75_not_checked (record layer), C75_versions_ignored (whole sessions: altering the version bytes of any records up to ChangeCipherSpec changes nothing that is returned or sent, and later calls are the same). C75_protected_partial: in protected records the version is authenticated; taking a record with an altered version needs a Poly1305 collision under the key of that record."
 ],
 "C77": [
  "proved",
  "C77_tags_uniform, C77_forgery_bound, C77_attempts, C77_decrypt_iff, C77_records: the implementation computes a polynomial over the field of 2^130 - 5 elements (prime by Pratt certificates), different messages give different polynomials, and a polynomial has few roots. That the one-time keys ChaCha20 produces look uniform is an assumption about the cipher and is not stated."
 ],
 "C78": [
  "proved",
  "C78_wire (from C67_wire and the equality of the record protection with one that takes the block function as a parameter, Spec/Blocks), C78_perfect_secrecy (bijection between the block choices: add the difference of the texts), C78_calls. That the blocks of ChaCha20 under a secret key cannot be told from random ones is an assumption about the cipher and is not stated."
 ],
 "C79": [
  "proved",
  "C79_wire_length; C79_lengths_show: whatever the keys, the sum can be read off the wire."
 ],
 "C80": [
  "proved",
  "C80_forgery_bound (C77 for one record; independence of the one-time keys of the other records by an exchange argument; union over positions and numbers), C80_real (with the blocks of ChaCha20 it is the forgery of C69), C80_session (with C69)."
 ],
 "C81": [
  "partial",
  "False of the code (C81_not_ended): any number of refused records is survived, the number is not used up, no alert is sent and the next read delivers. Proved: the read that meets a refused record returns at once without delivering anything of it (C81_stops_partial)."
 ],
 "C82": [
  "partial",
  "False of the code (C82_sent_after_close): in every session a write after close succeeds and puts its records behind the alert. Proved: close sends exactly one record, and nothing more is sent while only read and flush follow (C82_close_partial)."
 ],
 "C83": [
  "partial",
  "False of the code (C83_not_bounded): for every n there is a stream of n empty records of a connected peer that a single read takes without returning. Proved: at most n records with content are taken (C83_data_partial)."
 ],
 "C84": [
  "proved",
  "Observations in the sense of Base/Trace (branches, positions, lengths); what the compiler makes of the code is outside the model."
 ],
 "C85": [
  "partial",
  "Proved for release builds (for every scalar and every peer point). False for debug builds: the debug_assert of reduce_once and sub short-circuits on secret data; C85_debug_leaks gives two scalars whose observations differ, for every peer point."
 ],
 "C86": [
  "proved",
  "Observations in the sense of Base/Trace. The overflow checks of debug builds are not observations (they never fail: C35, C36)."
 ],
 "C87": [
  "proved",
  "Observations in the sense of Base/Trace."
 ],
 "C88": [
  "partial",
  "The random scalar: proved for both build modes (C88_random_scalar, C88_rejections). The whole of compute_keys: proved for release builds; false for debug builds by C85 (C88_debug_leaks, for every message that is accepted)."
 ],
 "C89": [
  "proved",
  "Spec/Wire.lean writes every structure field by field, with its own numbers, prefixes and bounds. C89_bounds: constructors and decoder give exactly the messages within these bounds; C89_written, C89_read, C89_accepted; C89_code_points; C89_alert, C89_key_exchange, C89_key_exchange_accepted."
 ],
 "C90": [
  "proved",
  "All 29 item types, by a simulation between reading in memory and reading from a transport. C90_one_message_only shows that two handshake messages cannot be read one after the other from the same transport (the reader insists on the end of the input)."
 ],
 "C91": [
  "partial",
  "False in one point: a hello that names UnknownCipherSuite is refused only after its header, version, random and session id have been sent (C91_half_written). Everything else is proved for all 29 item types."
 ],
 "C92": [
  "partial",
  "False of the code: for every number of bytes let through, all reads return what they return when the peer sent the data of the whole records among them and closed properly (C92_cut_looks_closed); every record boundary can be chosen (C92_not_detected). Proved: what is handed out is a prefix of the data, without panics (C92_prefix_partial). C92_session_cut: the same for whole sessions with a conforming server, for every number of bytes after the handshake and all histories of calls."
 ],
 "C93": [
  "proved",
  "Fewer than 2^31 bytes (the constant proved is 872526010), by an amortised argument over read_record, read_message and the nine messages of the handshake. Concerns data taken, not time: a server that sends nothing makes the transport's read block, which the model does not describe."
 ],
 "C94": [
  "partial",
  "False in release builds: write_count += 1 wraps and the 2^64-th write after a record succeeds with that record's number, key and nonce (C94_number_reused); C94_wire gives the wire of any history. In debug builds the write using the last number panics after its record has been sent (C94_debug_panics). C94_below_partial: below 2^64 records no nonce is repeated. Transports without write errors; with errors see C68."
 ],
 "C95": [
  "partial",
  "read_exact: proved (C95_read_exact). read_to_end is false of the code (C95_past_close): it goes on past close_notify, with all buffer sizes, and returns only when the transport ends. C95_read_to_end_partial, C95_session_partial: exactly the data if the connection ends after close_notify. std's two loops are modelled from their documentation."
 ],
 "C96": [
  "proved",
  "A complete functional specification of such sessions. The server may end with or without close_notify, inside a record, or with a transport error (then see C92)."
 ],
 "C97": [
  "proved",
  "The connected stream is given; DNS, TCP and from_utf8_lossy are not modelled. That the server is the one named is not checked by anything (C30)."
 ],
 "C98": [
  "partial",
  "False as stated. The comment at chacha20.rs:94 allows 2^70 bytes under one nonce (the bound of the 64-bit-counter variant), but the counter has 32 bits: in release builds every history succeeds and the counter goes round (C98_release), so bytes at a distance of 2^38 are encrypted with the same key stream and the ciphertext tells their xor (C98_reused); in debug builds the call that uses block 2^32-1 panics (C98_debug_panics). Proved: below 2^32 blocks every history follows RFC 8439 with distinct states (C98_below_partial), and pieces that are multiples of 64 bytes compose (C98_pieces). A TLS record is far below the limit."
 ],
 "C99": [
  "proved",
  "C99_channel: sender and receiver run one after the other, so it is about the bytes, not about timing. Allowed says which histories: messages a peer may send (Sendable, as in C09), data only after the keys (otherwise write_application_data panics by its own check), keys set once (otherwise set_encryptor panics by its own assertion)."
 ],
 "C100": [
  "partial",
  "False of the code: flush returns Ok without touching the transport and nothing else flushes it. C100_hello_kept: when the client begins to wait for ServerHello, all 74 bytes of the ClientHello record are still in any buffer of more than 74 bytes, so with a server that waits for it the handshake stands still. C100_flush_keeps, C100_not_flushed: in every session nothing is delivered, also after flush, while it fits the buffer. C100_inner_flush_partial: flushing the transport itself through client.writer() delivers exactly what was written. BufWriter is modelled from its documentation."
 ],
 "C101": [
  "partial",
  "False of the code: an extension of any type other than the three, with any content, is accepted (C101_unasked); so is the same one up to 16383 times (C101_repeated), and a list of point formats without `uncompressed` (C101_compressed_only). Proved, for whatever the server sends: when the handshake completes the extension part is absent or a well-formed block, an extension of one of the three types has the content prescribed for it, and the extensions do not change the keys."
 ],
 "C102": [
  "proved",
  "C102_exact is an equivalence between success of `new` and the predicate Acceptable on the stream (which mentions the model only for the ECDHE computation of C53); C102_accepts also gives what is left afterwards; C102_record_versions is a consequence. Writing must not fail (the other case is C32)."
 ],
 "C103": [
  "partial",
  "Every error returned is traced to its cause (C103_cause), and each kind but two says exactly what the claim says. False for IoFailure (C103_not_io: a ServerHello whose body has at most 34 bytes is reported as a failure of the transport, no alert is sent and the rest of the stream is not read, although the transport never fails) and for InternalError (C103_not_internal: a ServerHelloDone with one byte too many); the two _partial theorems say what these kinds do mean."
 ],
 "C104": [
  "proved",
  "traced copies of the record layer and of the client's calls, proved to have the results of the model (C104_same_result); relational proof over two executions. The server's stream is genuine application data and the transport delivers all of it before it ends or fails. Serialisation of alerts and parsing of handshake messages show nothing here."
 ],
 "C105": [
  "proved",
  "traced copies of the computations with the results of the model (C105_same_result); relational proof over two executions, the Finished record by the writer's part of C104. Reading the server's last flight is not compared (its record layer is C104's, with application data)."
 ],
 "C106": [
  "proved",
  "All public calls of both types are in the histories; the result of a failed call is dropped and the next call runs on the state it left."
 ],
 "C107": [
  "proved",
  "C107_outcome is an equivalence: the result of `new` is x if and only if `Ends … x`, where `Ends` is an inductive relation over what comes (`Comes`) on the stream; C107_unique says that the relation has exactly one value, C107_connected is the case of success, C107_message the same for a single message at any time. Panics are included: a record that opens to more than 2^14 bytes, and a debug build's key computation (C48, C54, C61). The random generator must give at least the 32 bytes of the client random (else `fill_bytes` does not return, C61) and the stream be shorter than 2^64 bytes."
 ],
 "C108": [
  "proved",
  "`Arrives` and `HandsOut` are relations on the bytes the transport gives (through `Comes` of C107). C108_arrives: `Arrives` has exactly one value for every reader with keys (the state after a crash is left open). C108_reads: the results of any history of calls are what `HandsOut` says, and nothing else. C108_session: the same from `TlsClient::new` on, for a stream on which the handshake completes. Hypothesis: fewer than 2^64 bytes and records."
 ],
 "C109": [
  "proved",
  "`Behaves` is a relation on what arrives (C108), the faults of the transport's writes and the calls; keys and cipher are the specification's. C109_calls: for any client with keys the results and the bytes sent are what `Behaves` says, and nothing else; C109_unique: `Behaves` has exactly one value; C109_session: the same from any successful `TlsClient::new` on, over any transport. Hypotheses: fewer than 2^64 bytes delivered and fewer than 2^64 records written."
 ],
 "C110": [
  "proved",
  "`Plays` is a relation on the transport, the random bytes and the calls, built from C107's `Comes`, C108's `Arrives` and C109's `Behaves`; keys, cipher and encodings are the specification's. C110_program: the program's results and bytes are what `Plays` says, and nothing else; C110_unique: `Plays` has exactly one value. Hypotheses: 32 random bytes are there for the ClientHello, fewer than 2^64 - 1 bytes are delivered and fewer than 2^64 - 1 records are written."
 ],
 "C111": [
  "proved",
  "`Model/Sock` writes the functions of TlsWriter and TlsClient down again over a transport that answers single `write` calls, with std's loop for `write_all`. C111_write_all: what a `write_all` does; C111_refines: every program over such a transport is one over the transport of `Model/Transport`, with the faults computed by `faultsOf`, so that the other claims carry over; C111_program: with C110; C111_slow: transports without failures are indistinguishable."
 ],
 "C112": [
  "partial",
  "release builds: relational proof over two executions of the traced handshake, from the ClientHello to the check of the server's Finished, joined with C104 for the calls after it. The full claim (both build profiles) does not hold: debug builds tell the secrets 1 and 2 apart whatever the server sends (C112_debug_leaks, C112_only_release). Not observed: parsing and serialising handshake messages beyond kinds and lengths. Handshakes that fail are C114."
 ],
 "C113": [
  "proved",
  "A caller who replaces a field by another TlsReader or TlsWriter, or writes to the transport through get_mut, is outside. A direct call of read_handshake or read_change_cipher_spec that finds application data drops it (part of the statement: the failed call hands out nothing). A TlsClient::read that panics loses what it had read; histories with such a call are excluded from the receiving part."
 ],
 "C114": [
  "proved",
  "relational proof over two executions of the traced TlsClient::new: each part of the handshake is shown to end alike, then the alert; the same erasure theorem as elsewhere ties the traced call to the model's. Observations as for C112 (parsing and serialising message bodies beyond kinds and lengths is not observed). A Finished that is properly protected but wrong needs the server's keys and is outside the statement."
 ],
 "C115": [
  "proved",
  "C115_sent, C115_received by induction over histories whose states are compared before and after each call, from the lemmas per call of C113; C115_from_tcp by definition of the model (a TcpStream is its two directions and whether try_clone succeeds). A handed out transport is any function on the model's transport."
 ],
 "C116": [
  "proved",
  "C116_tries (a union over the tries of the bound for one record), C116_count, C116_session: the client's walk through its stream is followed record by record (`Walks`: taken, refused or passed over, nothing left out) and compared with the walk that knows only the records seen (`tries`). A refused record does not end the connection (C81), so the number of tries is bounded by the length of the stream only."
 ],
 "C117": [
  "partial",
  "False of the code, for every constant up to 4000 (C117_false): each call ends with self.buf[necessary..].to_vec(), which copies all that is left, so one-byte reads of a record of n bytes move exactly n + n(n+1)/2 bytes (C117_one_byte_reads, for all records of all sessions with a conforming server); for a full record that is more than 8000 moves per byte. Proved instead, for every state and whatever arrives: a call moves at most twice the bytes delivered and twice those left behind (C117_call_partial); with buffers of at least one record each byte is moved at most 4 times (C117_large_buffers_partial). The counting program returns what read returns (C117_same_read)."
 ],
 "C118": [
  "partial",
  "False of the code (C118_false): read_change_cipher_spec drops the alert, so every alert the library knows gives, in place of the ChangeCipherSpec, the kind UnexpectedMessage and the same text 'expected ChangeCipherSpec, get alert' (C118_change_lost). That is where a server reports that it does not accept the client's key exchange or Finished. Proved: at every other point the error tells the alert (C118_told_partial), unknown alerts are shown at the ChangeCipherSpec too (C118_change_unknown_partial), different alerts are told of differently (C118_distinct), and AlertReceived always names an alert that came (C118_named). The model with texts is the model of the handshake (C118_same_handshake)."
 ],
 "C119": [
  "partial",
  "False: a buffer of more than 16384 bytes goes out as several records, and a failure after the first leaves that one delivered (C119_false). C119_twice: for every such buffer and every state, over a transport that refuses once, the call fails, the call made again returns Ok, and the peer gets the first 16384 bytes twice. Proved partly: what the peer gets is always the beginning of the buffer, cut at a multiple of 16384, and all of it only if the transport has taken every record whole (C119_prefix_partial); of a buffer of one record it gets nothing unless the transport took the whole record and reports an error all the same (C119_short_partial). C119_stop_partial: a program that stops at the first error delivers the buffers of all calls that returned Ok and then a beginning of the failed one, nothing twice or out of order; without an error, everything."
 ],
 "C120": [
  "partial",
  "False (C120_false): `Record` has public fields, so the limit of `Record::new` need not hold, and write_record checks only the encrypted length. C120_passage says exactly what happens, by length: up to 2^14 bytes the record arrives (C120_fits_partial); with a key, from 2^14+1 to 2^14+2032 bytes it is sent and the reader panics, above that write_record panics; without a key, up to 2^14+2048 bytes it is sent and the reader refuses it with RecordOverflow, above that write_record panics. C120_too_long: no longer record arrives, and none is refused with an error by the writer. The client itself only sends records of at most 2^14 bytes."
 ],
 "C121": [
  "partial",
  "False at every position and for every interjection (C121_disturbs, C121_false): a HelloRequest ends the handshake with UnexpectedMessage; a warning ends it with AlertReceived, and in place of the ChangeCipherSpec with UnexpectedMessage; a protected warning before the Finished ends it with AlertReceived (C121_before_finished). Without the interjection the handshake with the same server, records and transport is completed (C121_without_partial). After the handshake both make `read` panic (C24_alert_panics, C24_handshake_panics)."
 ],
 "C122": [
  "proved",
  "C122_hello: what new sends begins with the ClientHello, whatever can be read, or nothing. C122_flight: with the server's first flight come and anything or nothing after it, what new sends begins with the whole of both flights of the client. C122_completes: against any server that holds back each of its flights until it has the client's (Answers), the conversation (talk) is complete after two turns. For a transport that keeps small writes in a buffer this is false, since nothing is flushed: C100_hello_kept. The server is taken to accept the client's point, as in C29."
 ],
 "C123": [
  "proved",
  "C123_sent: what new has sent on a stream is the beginning of what it sends on any continuation of it. C123_result: with any result but an I/O error the continuation changes nothing and is left unread. C123_message: the same for TlsReader::read_message. C123_read: the same for a read that fills its buffer. C123_read_short: one that does not has returned the beginning of what it returns when more comes, if that is not a panic (C24). C123_conversation: in the conversation of C122 with any server that does not take back what it has sent, the client does not either. Want of bytes is the end of the transport's script in the model, where a real transport would block."
 ],
 "C124": [
  "proved",
  "C124_cut: the result and that what was sent is the beginning of the client's part of the handshake. C124_sent: the ClientHello at least, and all of it once the first flight has come. C124_needed: for any stream and any result, new without the last thing it took ends in an I/O error. C124_eof_or_error: for any stream, an error, whatever comes after it, is the same as end of file there. After the handshake it is otherwise: a cut looks like a close (C92). The server is taken to accept the client's point, as in C29; the transport on the writing side works."
 ],
 "C125": [
  "proved",
  "C125_new: for a writer that fails after any number of bytes of any write. C125_socket: for a transport that takes writes in pieces, through the refinement of C111. C125_slow: no difference if it takes everything in the end. C125_complete: with Ok everything has been sent. C125_cut: with C124. Incoming streams of less than 2^64 - 1 bytes (else C61 does not exclude that the record counter runs over)."
 ]
}