{"id": "C01", "title": "Handshake messages round-trip", "statement": "Writing any handshake message whose parts were built through the public constructors (and whose body is shorter than 2^24 bytes) and reading the bytes back yields the same message, and the reader consumes exactly those bytes.", "quantifier": "all handshake messages of all nine kinds, all vector lengths and contents", "why_tests_cant": "the message space is unbounded (nested variable-length vectors); the repo tests one ClientHello", "anchors": ["src/handshake.rs: Handshake::tls_write, Handshake::tls_read", "src/tls_item.rs: tls_struct!, tls_vec!, tls_enum!, tls_array!, tls_option!"]}
{"id": "C02", "title": "tls_size is the number of bytes written", "statement": "For every serialisable item whose tls_write succeeds, tls_size equals the number of bytes tls_write emits.", "quantifier": "all items of all serialisable types", "why_tests_cant": "length prefixes are computed from tls_size, so one wrong case corrupts the framing of every enclosing message", "anchors": ["src/tls_item.rs: TlsItem::tls_size", "src/handshake.rs: Extension, Handshake", "src/cipher/mod.rs: CipherSuite"]}
{"id": "C03", "title": "Decoding is canonical (transcript fidelity)", "statement": "If Handshake::tls_read accepts a byte string (with correct length header), then re-serialising the decoded message, when that succeeds, gives back exactly the received bytes. The client hashes re-serialised messages for Finished, so this is what makes the transcript equal the peer's.", "quantifier": "all byte strings accepted as a handshake message", "why_tests_cant": "must hold for every accepted encoding, including those no honest serializer produces", "anchors": ["src/handshake.rs: Handshake::tls_read", "src/tls_item.rs: tls_option!", "src/client.rs: handshake (msgs)"]}
{"id": "C04", "title": "Decoding is total and panic-free", "statement": "Reading a handshake message from any byte string terminates and returns Ok or Err; it never panics, never loops, and unconsumed trailing bytes are reported as an error.", "quantifier": "all byte strings", "why_tests_cant": "an adversary chooses the bytes; tests sample a handful", "anchors": ["src/handshake.rs: Handshake::tls_read", "src/tls_item.rs: tls_vec! tls_read loop"]}
{"id": "C05", "title": "Vector bounds are enforced", "statement": "A tls_vec constructor succeeds exactly when the serialised size of its items lies in [min,max]; every vector produced by decoding satisfies the same bounds.", "quantifier": "all item lists for every vector type", "why_tests_cant": "ranges over all list lengths including both boundaries", "anchors": ["src/tls_item.rs: tls_vec! new, tls_read"]}
{"id": "C06", "title": "Length prefixes never truncate", "statement": "Every length field written (vector prefix, extension length, handshake length) equals the true length of what follows, for every item the public constructors accept.", "quantifier": "all constructor-accepted extensions and handshake messages", "why_tests_cant": "the failure needs a 32767-element list: `as u16`/24-bit truncation happens only at the boundary", "anchors": ["src/handshake.rs: tls_hello_extension! tls_write (`as u16`)", "src/handshake.rs: tls_handshake! tls_write", "src/tls_item.rs: tls_vec! tls_write"]}
{"id": "C07", "title": "Enums accept exactly their code points", "statement": "Each tls_enum decodes a number iff it is one of its listed code points, the decoded value writes back the same number, and all other numbers yield DecodeError.", "quantifier": "every u8/u16 value for every enum type", "why_tests_cant": "tests touch a few code points; the claim is about all 256/65536", "anchors": ["src/tls_item.rs: tls_enum!", "src/alert.rs", "src/signature.rs", "src/handshake.rs: NamedCurve, ECPointFormat, CompressionMethod, ClientCertificateType"]}
{"id": "C08", "title": "Unknown cipher suites are inert", "statement": "Any two bytes other than 0xcc,0xa8 decode to UnknownCipherSuite, which can never be written, and a ServerHello carrying it is rejected with IllegalParameter.", "quantifier": "all 65535 unknown suite ids", "why_tests_cant": "ranges over all ids and all ServerHello contents", "anchors": ["src/cipher/mod.rs: cipher_suite!", "src/client.rs: handshake"]}
{"id": "C09", "title": "Handshake reassembly is independent of record boundaries", "statement": "For every sequence of handshake messages and every way of cutting their concatenated bytes into fragments, feeding the fragments to HandshakeBuffer and polling get_message delivers exactly the messages in order.", "quantifier": "all message sequences, all fragmentations, all poll interleavings", "why_tests_cant": "exponentially many fragmentations", "anchors": ["src/handshake.rs: HandshakeBuffer::add_record, get_message"]}
{"id": "C10", "title": "An incomplete handshake message is never delivered or lost", "statement": "While the buffered bytes are a strict prefix of a message, get_message returns Ok(None) and keeps all bytes; a complete message with unknown type is dropped and reported as UnexpectedMessage, leaving the following bytes intact.", "quantifier": "all buffer contents", "why_tests_cant": "must hold at every cut point", "anchors": ["src/handshake.rs: HandshakeBuffer::get_message"]}
{"id": "C11", "title": "Reading is independent of transport chunking", "statement": "For any schedule of short reads of the underlying Read, as long as it delivers the same bytes, every TlsReader/ReadExt operation returns the same result and leaves the same bytes unread; if the stream ends too early the result is an I/O failure.", "quantifier": "all byte streams and all schedules of non-empty short reads", "why_tests_cant": "schedules are unbounded; a test transport usually delivers everything at once", "anchors": ["src/util.rs: ReadExt::fill_exact, read_exact, read_u8, read_be_u16", "src/tls.rs: TlsReader::read_record"]}
{"id": "C12", "title": "A transient transport error does not corrupt the stream", "statement": "If the underlying Read reports ErrorKind::Interrupted in the middle of a record, no received byte is lost: retrying yields the record that was sent.", "quantifier": "all positions of an interruption in a byte stream", "why_tests_cant": "depends on where in a record the interruption falls", "anchors": ["src/util.rs: ReadExt::fill_exact"]}
{"id": "C13", "title": "Record layer round-trip", "statement": "For any content type and data of any length, what write_data emits is read back by a TlsReader holding the matching decryptor, IV and sequence number as records whose fragments concatenate to the data, with both sequence numbers advanced equally.", "quantifier": "all data lengths, content types, keys, IVs, sequence numbers, with and without encryption", "why_tests_cant": "lengths across the 2^14 boundary and arbitrary histories of earlier records", "anchors": ["src/tls.rs: TlsWriter::write_data, write_record, TlsReader::read_record"]}
{"id": "C14", "title": "Fragmentation", "statement": "write_data splits n bytes into ceil(n/2^14) records, each non-empty and of at most 2^14 plaintext bytes, in order, whose concatenation is the input, and never panics on length.", "quantifier": "all data lengths", "why_tests_cant": "unbounded lengths", "anchors": ["src/tls.rs: TlsWriter::write_data, Record::new"]}
{"id": "C15", "title": "Nonce uniqueness", "statement": "Over any sequence of operations on one TlsWriter, no two calls of the encryptor use the same nonce (for different plaintext), including when the transport's writes fail and the caller tries again.", "quantifier": "all operation histories, including transport write failures at every point", "why_tests_cant": "needs a failure at a particular point followed by a retry", "anchors": ["src/tls.rs: TlsWriter::write_record (write_count)", "src/client.rs: send_tls_alert, write_all"]}
{"id": "C16", "title": "Nonce and additional data follow RFC 7905 / RFC 5246", "statement": "The k-th encrypted record uses nonce = IV xor (0^4 || k as 64-bit big endian) and additional data k || type || version || plaintext length, on both the writing and the reading side.", "quantifier": "all k < 2^64, all IVs, record types and lengths", "why_tests_cant": "tests can only sample sequence numbers", "anchors": ["src/tls.rs: write_record, read_record", "src/util.rs: u64_be_array"]}
{"id": "C17", "title": "Application data integrity against an active attacker", "statement": "If the decryptor accepts only (nonce, ciphertext, additional data) triples the peer's encryptor produced, then for every byte stream an attacker delivers (dropping, reordering, replaying, injecting, truncating), the concatenation of all application data returned by successive reads is a prefix of the data the peer wrote.", "quantifier": "all attacker byte streams, all read histories including after errors", "why_tests_cant": "quantifies over all adversaries", "anchors": ["src/tls.rs: TlsReader::read_record, read_application_data", "src/client.rs: Read for TlsClient"]}
{"id": "C18", "title": "Over-long records are refused with an error", "statement": "A record header announcing more than 2^14+2048 bytes, an unencrypted record of more than 2^14 bytes and an encrypted record whose plaintext exceeds 2^14 bytes are all refused with RecordOverflow and never delivered.", "quantifier": "all record lengths and contents", "why_tests_cant": "boundary lengths for arbitrary content under arbitrary keys", "anchors": ["src/tls.rs: TlsReader::read_record"]}
{"id": "C19", "title": "Receiving arbitrary bytes never panics", "statement": "For any bytes arriving from the network, read_message, read_handshake and read_change_cipher_spec return Ok or Err; they never panic.", "quantifier": "all byte streams, with and without encryption", "why_tests_cant": "adversarial input space", "anchors": ["src/tls.rs: TlsReader::read_message, read_record"]}
{"id": "C20", "title": "Alert and ChangeCipherSpec parsing", "statement": "A ChangeCipherSpec record is accepted iff its payload is exactly [1]; an alert record is accepted iff its payload is exactly two bytes naming a known level and description, and is delivered as that alert; everything else is UnexpectedMessage.", "quantifier": "all payloads", "why_tests_cant": "all byte strings of all lengths", "anchors": ["src/tls.rs: read_message", "src/alert.rs"]}
{"id": "C21", "title": "write is all-or-error", "statement": "TlsClient::write(buf) returns Ok(n) only with n = buf.len() and only after all the records carrying buf were handed completely to the transport; otherwise it returns an error.", "quantifier": "all buffers and all transport failure points", "why_tests_cant": "failure may occur inside any of the five writes of any record", "anchors": ["src/client.rs: Write for TlsClient", "src/tls.rs: write_record"]}
{"id": "C22", "title": "read delivers the stream exactly, for any buffer sizes", "statement": "Successive TlsClient::read calls with any buffer lengths return at most buf.len() bytes each and together return exactly the received application data in order, without loss, duplication or reordering; a short count is returned only after the stream failed or ended.", "quantifier": "all sequences of buffer sizes and record sizes", "why_tests_cant": "interaction of buffer sizes with record boundaries is unbounded", "anchors": ["src/client.rs: Read for TlsClient::read"]}
{"id": "C23", "title": "Nothing is delivered after close_notify", "statement": "Once the peer's close_notify was received, read returns end-of-stream and never delivers later application data.", "quantifier": "all streams containing a close_notify", "why_tests_cant": "depends on what follows the alert", "anchors": ["src/tls.rs: read_application_data", "src/client.rs: Read for TlsClient::read"]}
{"id": "C24", "title": "A peer cannot crash an established connection", "statement": "After the handshake, read returns a value or an error for every alert, ChangeCipherSpec or handshake message the peer sends; it does not panic.", "quantifier": "all messages a peer may send after the handshake", "why_tests_cant": "all 2-byte alerts and all handshake messages", "anchors": ["src/tls.rs: read_application_data (unimplemented!)"]}
{"id": "C25", "title": "Read failures are reported as errors", "statement": "If a record fails authentication or the transport fails, TlsClient::read reports an error that the caller can distinguish from end-of-stream.", "quantifier": "all failing streams", "why_tests_cant": "all failure kinds at all positions", "anchors": ["src/client.rs: Read for TlsClient::read (`Err(_err) => break`)"]}
{"id": "C26", "title": "No application data before the handshake completes", "statement": "A constructed TlsClient always has an encryptor and a decryptor installed (so write/read never hit the 'before handshake' panics), and no ApplicationData record is ever sent before the server's Finished was verified.", "quantifier": "all server behaviours, all transports", "why_tests_cant": "ranges over all server byte streams", "anchors": ["src/client.rs: TlsClient::new, handshake", "src/tls.rs: write_application_data, read_application_data"]}
{"id": "C27", "title": "A completed handshake implies a proper server flight", "statement": "If TlsClient::new succeeds then the server sent, in this order, ServerHello (version 3.3, suite 0xcca8, null compression), Certificate, ServerKeyExchange with a point that passes the curve check, ServerHelloDone, ChangeCipherSpec and, encrypted, Finished.", "quantifier": "all server byte streams and record fragmentations for which the handshake succeeds", "why_tests_cant": "quantifies over all accepted streams", "anchors": ["src/client.rs: handshake"]}
{"id": "C28", "title": "Server Finished is verified", "statement": "If TlsClient::new succeeds then the verify_data received equals PRF(master_secret, 'server finished', SHA-256(transcript))[0..12], where master_secret and the transcript are the client's own; otherwise a mismatch gives DecryptError.", "quantifier": "all server byte streams", "why_tests_cant": "all 12-byte values and transcripts", "anchors": ["src/client.rs: handshake", "src/util.rs: crypto_compare", "src/cipher/prf.rs"]}
{"id": "C29", "title": "Handshake completes with a correct server and both sides share keys", "statement": "Against any server that follows RFC 5246 (any randoms, session id, certificates, signature bytes, any P-256 key pair, any record fragmentation) the handshake succeeds and both sides hold the same master secret, record keys and IVs, so that application data then flows in both directions.", "quantifier": "all randoms, certificates, keys and fragmentations of a conforming server", "why_tests_cant": "needs the group law and hash/PRF agreement for all values", "anchors": ["src/client.rs: handshake", "src/cipher/ecdhe.rs: compute_keys"]}
{"id": "C30", "title": "The server is authenticated", "statement": "A handshake succeeds only if the server proved possession of the private key of a certificate valid for the peer: certificate chain and ServerKeyExchange signature are verified.", "quantifier": "all certificate lists and signatures", "why_tests_cant": "must reject every forged certificate/signature", "anchors": ["src/client.rs: handshake (TODO: cert validation)", "src/cipher/ecdhe.rs: signed_params"]}
{"id": "C31", "title": "What the client sends", "statement": "The first record is the ClientHello with version 3.3, the fresh 32-byte random, empty session id, the single suite 0xcca8, null compression and exactly the three extensions; in a successful handshake the wire carries exactly ClientHello, ClientKeyExchange, ChangeCipherSpec and an encrypted Finished with PRF(master,'client finished',hash), in this order.", "quantifier": "all randoms and all server behaviours", "why_tests_cant": "exact bytes for every random value", "anchors": ["src/client.rs: handshake", "src/handshake.rs: new_client_hello"]}
{"id": "C32", "title": "Failure sends exactly the matching fatal alert", "statement": "If the handshake fails with an error other than IoFailure, the client sends exactly one fatal alert whose description corresponds to the error kind; with IoFailure it sends nothing more. The error returned is the handshake error unless sending the alert failed.", "quantifier": "all failing server behaviours", "why_tests_cant": "all failure points", "anchors": ["src/client.rs: new, send_tls_alert", "src/alert.rs: from_tls_err"]}
{"id": "C33", "title": "Handshake messages do not span the key change", "statement": "Every byte of the Finished message the client accepts arrived in a record protected by the negotiated keys.", "quantifier": "all server byte streams", "why_tests_cant": "needs a fragment placed just before ChangeCipherSpec", "anchors": ["src/tls.rs: read_message (TODO), read_change_cipher_spec, set_decryptor", "src/handshake.rs: HandshakeBuffer"]}
{"id": "C34", "title": "ChaCha20 is RFC 8439 ChaCha20", "statement": "For every 32-byte key, 12-byte nonce and data, encrypt (after k block calls) equals the XOR of the data with the RFC 8439 keystream from block counter k; output length equals input length and encrypting twice with the same position restores the data.", "quantifier": "all keys, nonces, data lengths", "why_tests_cant": "unbounded data; key space 2^256", "anchors": ["src/crypto/chacha20.rs"]}
{"id": "C35", "title": "The block counter never overflows on records", "statement": "Encrypting or decrypting any record-sized fragment never overflows the 32-bit block counter (which would panic in debug builds or repeat keystream in release builds).", "quantifier": "all fragments up to 2^38 - 128 bytes", "why_tests_cant": "boundary is at 256 GiB", "anchors": ["src/crypto/chacha20.rs: next, encrypt"]}
{"id": "C36", "title": "Poly1305 computes the Poly1305 function", "statement": "authenticate(msg, r, s) = ((sum of blocks (with high bit) * powers of clamp(r)) mod 2^130-5 + s) mod 2^128, little endian, for every message and key, and no intermediate u32/u64 operation overflows.", "quantifier": "all messages of all lengths, all r and s", "why_tests_cant": "limb carry bugs appear for ~2^-64 fractions of inputs", "anchors": ["src/crypto/poly1305.rs"]}
{"id": "C37", "title": "AEAD round-trip", "statement": "decrypt(nonce, encrypt(nonce, plain, ad), ad) = Ok(plain) for every key, nonce, plaintext and additional data; the ciphertext is exactly 16 bytes longer than the plaintext.", "quantifier": "all keys, nonces, plaintexts, additional data", "why_tests_cant": "unbounded lengths", "anchors": ["src/cipher/chacha20_poly1305.rs"]}
{"id": "C38", "title": "AEAD accepts only the right tag", "statement": "decrypt returns Ok exactly when the last 16 bytes equal the Poly1305 tag of (ad, ciphertext) under the nonce's one-time key; otherwise, and for inputs shorter than 16 bytes, it returns BadRecordMac and no plaintext. In particular changing only tag bytes always fails.", "quantifier": "all inputs", "why_tests_cant": "all 2^128 tags", "anchors": ["src/cipher/chacha20_poly1305.rs: decrypt"]}
{"id": "C39", "title": "The AEAD construction is RFC 8439 AEAD and its MAC input is unambiguous", "statement": "encrypt equals the RFC 8439 section 2.8 construction, and distinct (ad, ciphertext) pairs give distinct MAC inputs.", "quantifier": "all pairs of additional data and ciphertext", "why_tests_cant": "injectivity is a statement about all pairs", "anchors": ["src/cipher/chacha20_poly1305.rs: compute_mac"]}
{"id": "C40", "title": "SHA-256 is FIPS 180-4 SHA-256", "statement": "sha256(msg) equals the FIPS 180-4 definition for every message shorter than 2^61 bytes.", "quantifier": "all messages of all lengths", "why_tests_cant": "padding cases depend on length mod 64; the repo tests three messages", "anchors": ["src/crypto/sha2.rs"]}
{"id": "C41", "title": "HMAC-SHA256 is RFC 2104", "statement": "hmac_sha256 equals RFC 2104 HMAC for every key and message; keys longer than 64 bytes are hashed first.", "quantifier": "all keys and messages", "why_tests_cant": "all key lengths including > 64", "anchors": ["src/cipher/prf.rs: hmac_sha256"]}
{"id": "C42", "title": "PRF output is a stream independent of request sizes", "statement": "For any sequence of get_bytes sizes, the concatenation of the results is the prefix of the RFC 5246 P_SHA256(secret, seed) stream, each result having the requested length.", "quantifier": "all sequences of request sizes", "why_tests_cant": "tests try three splittings of 100 bytes", "anchors": ["src/cipher/prf.rs: Prf::get_bytes"]}
{"id": "C43", "title": "Constant-time compare is equality", "statement": "crypto_compare(a,b) is true iff a = b, for all slices of equal length.", "quantifier": "all pairs of equal-length byte strings", "why_tests_cant": "all pairs", "anchors": ["src/util.rs: crypto_compare"]}
{"id": "C44", "title": "Field arithmetic is arithmetic modulo p", "statement": "For all field elements below p, add, sub, mult, square, double and divide_by_2 return the canonical representative of the mathematical result and never violate a debug assertion; mult is correct for all 256-bit inputs.", "quantifier": "all pairs of field elements (2^512)", "why_tests_cant": "carry/borrow/reduction corner cases are hit with negligible probability by samples", "anchors": ["src/crypto/p256.rs: int256"]}
{"id": "C45", "title": "Field inversion", "statement": "inverse(a) * a = 1 for every non-zero field element, and inverse(0) = 0.", "quantifier": "all field elements", "why_tests_cant": "tests use eight values", "anchors": ["src/crypto/p256.rs: Int256::inverse"]}
{"id": "C46", "title": "compare and choose", "statement": "compare returns 0 iff the operands are equal and 1 otherwise; choose returns its first argument for flag 0 and its second for flag 1.", "quantifier": "all 256-bit values", "why_tests_cant": "all pairs", "anchors": ["src/crypto/p256.rs: Int256::compare, choose, Point256::choose"]}
{"id": "C47", "title": "Byte encoding of field elements", "statement": "from_bytes(to_bytes(a)) = a, to_bytes is 32-byte big endian, from_bytes accepts exactly the 32-byte strings and to_bytes(from_bytes(b)) = b.", "quantifier": "all 256-bit values / all byte strings", "why_tests_cant": "all values", "anchors": ["src/crypto/p256.rs: to_bytes, from_bytes"]}
{"id": "C48", "title": "Point decoding accepts exactly the curve", "statement": "from_uncompressed_bytes accepts a byte string iff it is 0x04 || X || Y with X,Y < p and (X,Y) on P-256, never panics, and to_uncompressed_bytes is its inverse.", "quantifier": "all byte strings", "why_tests_cant": "an attacker chooses the coordinates; violations sit in a 2^-32 window of x values", "anchors": ["src/crypto/p256.rs: NPoint256::from_uncompressed_bytes"]}
{"id": "C49", "title": "Point addition and doubling are the group law", "statement": "For all (Jacobian) points on the curve, including infinity, equal and opposite points, add and double represent the sum in the elliptic-curve group, and normalize returns its affine coordinates.", "quantifier": "all pairs of curve points in all projective representations", "why_tests_cant": "special cases (equal, opposite, infinity) need algebra, not samples", "anchors": ["src/crypto/p256.rs: Point256::double, add, normalize"]}
{"id": "C50", "title": "Scalar multiplication", "statement": "mult_scalar(n) returns n times the point for every 256-bit n.", "quantifier": "all scalars and points", "why_tests_cant": "the repo has no test of mult_scalar at all", "anchors": ["src/crypto/p256.rs: Point256::mult_scalar"]}
{"id": "C51", "title": "Different secret scalars give different public keys", "statement": "Distinct secret scalars in [1, order) give distinct ECDHE public keys (i.e. the key exchange has the full 256-bit key space).", "quantifier": "all pairs of scalars", "why_tests_cant": "key-space size is invisible to tests", "anchors": ["src/crypto/p256.rs: mult_scalar", "src/cipher/ecdhe.rs: get_random_x"]}
{"id": "C52", "title": "ECDH agreement", "statement": "If the server's public point is y*G, the pre-master secret the client computes is the x-coordinate of y times the public point the client sends.", "quantifier": "all client and server secrets", "why_tests_cant": "needs the group law", "anchors": ["src/cipher/ecdhe.rs: compute_keys"]}
{"id": "C53", "title": "The client's public key is always a valid curve point", "statement": "For every random draw the ClientKeyExchange carries 65 bytes 04||X||Y with (X,Y) on the curve.", "quantifier": "all secret scalars", "why_tests_cant": "fails only for rare scalars", "anchors": ["src/cipher/ecdhe.rs: compute_keys", "src/crypto/p256.rs: normalize"]}
{"id": "C54", "title": "Key exchange never panics on server input", "statement": "compute_keys returns Ok or Err for every byte string the server may send as ServerKeyExchange, in every build mode.", "quantifier": "all byte strings", "why_tests_cant": "the panic needs an x-coordinate in a window of relative size 2^-33", "anchors": ["src/cipher/ecdhe.rs: compute_keys", "src/crypto/p256.rs: reduce_once debug_assert"]}
{"id": "C55", "title": "Random scalar selection", "statement": "The secret scalar is the first 256-bit candidate drawn that is below p, so it is always a reduced value, and candidates at or above p are skipped.", "quantifier": "all random sources", "why_tests_cant": "the skip happens with probability 2^-32", "anchors": ["src/cipher/ecdhe.rs: get_random_x"]}
{"id": "C56", "title": "Integer/byte conversions", "statement": "u64_be_array/u64_le_array/u32_be_array/u32_le_array give the big/little endian digits of their argument and are inverted by the corresponding ReadExt reads; write_be_u16 then read_be_u16 is the identity.", "quantifier": "all integers of the type", "why_tests_cant": "all 2^64 values", "anchors": ["src/util.rs: u64_be_array, u64_le_array, u32_be_array, u32_le_array, read_be_u16, write_be_u16"]}
{"id": "C57", "title": "Only the offered curve is accepted", "statement": "compute_keys succeeds only if the server named secp256r1, the one curve the client offered; any other curve type or curve name is refused.", "quantifier": "all ServerKeyExchange bodies", "why_tests_cant": "tests use well-behaved servers", "anchors": ["src/cipher/ecdhe.rs: compute_keys, EcParameters"]}
{"id": "C58", "title": "No bytes after the ServerKeyExchange signature", "statement": "A ServerKeyExchange body with bytes after the signature is refused.", "quantifier": "all bodies and all trailing bytes", "why_tests_cant": "needs all suffixes", "anchors": ["src/cipher/ecdhe.rs: compute_keys"]}
{"id": "C59", "title": "Parameters that were not offered are refused", "statement": "A ServerHello whose version is not 3.3, whose suite is not 0xcca8 or whose compression method is DEFLATE makes TlsClient::new return IllegalParameter, whatever the other fields, the extensions, the record boundaries and the bytes after it are.", "quantifier": "all ServerHello messages with at least one wrong parameter, all fragmentations, all continuations", "why_tests_cant": "ranges over all field values and all cuttings into records", "anchors": ["src/client.rs: handshake", "src/handshake.rs: ServerHello"]}
{"id": "C60", "title": "The first message must be a ServerHello", "statement": "If the first message of the server is a well-formed handshake message of another type, TlsClient::new returns UnexpectedMessage.", "quantifier": "all handshake messages of another type, all fragmentations", "why_tests_cant": "ranges over all messages and all cuttings into records", "anchors": ["src/client.rs: expect!, handshake"]}
{"id": "C61", "title": "TlsClient::new never panics and never hangs, whatever the server sends", "statement": "For every byte stream from the server, however it is delivered, cut off or broken, TlsClient::new returns Ok or an error: no panic and no endless loop, provided the random generator works.", "quantifier": "all server byte streams and read results, both build profiles, all transports for writing", "why_tests_cant": "ranges over all hostile byte streams, including ones that are correct under the session key", "anchors": ["src/client.rs: new, handshake", "src/tls.rs: TlsReader::read_record", "src/cipher/ecdhe.rs: compute_keys"]}
{"id": "C62", "title": "Messages out of order end the handshake", "statement": "At every point of the handshake, a well-formed message other than the one that is due (a handshake message of another type, a ChangeCipherSpec, or application data) makes TlsClient::new return UnexpectedMessage.", "quantifier": "all positions, all messages, all fragmentations, all continuations", "why_tests_cant": "ranges over all messages at all positions and all cuttings into records", "anchors": ["src/client.rs: expect!, handshake", "src/tls.rs: read_handshake, read_change_cipher_spec"]}
{"id": "C63", "title": "An alert during the handshake is reported as AlertReceived", "statement": "An alert from the server in place of any message of the handshake makes TlsClient::new return AlertReceived.", "quantifier": "all alerts, all positions, all fragmentations", "why_tests_cant": "ranges over all alerts at all positions, in clear and protected", "anchors": ["src/tls.rs: read_handshake, read_change_cipher_spec"]}
{"id": "C64", "title": "A server key that is not a point ends the handshake with IllegalParameter", "statement": "After a conforming ServerHello and Certificate, a ServerKeyExchange whose public key is not the uncompressed encoding of a point of P-256 makes TlsClient::new return IllegalParameter, whatever else the message says; a curve type other than named_curve makes it return DecodeError.", "quantifier": "all encodings of 1 to 255 bytes, all signatures, all trailing bytes, all fragmentations, both build profiles", "why_tests_cant": "ranges over all byte strings that do not encode a point", "anchors": ["src/cipher/ecdhe.rs: compute_keys", "src/crypto/p256.rs: from_uncompressed"]}
{"id": "C65", "title": "Empty handshake records are refused", "statement": "A handshake record with an empty fragment, in clear or protected, at any point of the handshake makes TlsClient::new return UnexpectedMessage (RFC 5246 6.2.1 forbids zero-length handshake fragments).", "quantifier": "all positions, also in the middle of a message, all fragmentations of what came before, all continuations", "why_tests_cant": "ranges over all positions and all cuttings into records", "anchors": ["src/tls.rs: TlsReader::read_message"]}
{"id": "C66", "title": "Only authenticated data of this session reaches the application, in any history", "statement": "After a successful handshake, whatever the server and the network do and however the application mixes read, write, flush and close: the bytes handed out by the reads are, in order and without gaps, an initial part of the application data of records in the stream behind the handshake that open under the server key of this session with consecutive sequence numbers continuing those of the handshake.", "quantifier": "all server behaviours, all networks, all histories of calls, both build profiles", "why_tests_cant": "ranges over all histories and all byte streams an attacker can produce", "anchors": ["src/client.rs: Read for TlsClient", "src/tls.rs: TlsReader::read_application_data"]}
{"id": "C67", "title": "The wire of a session is determined by its calls; reading and writing are independent", "statement": "In any history of calls the reads return what they would return without the writes, and the writes what they would return without the reads. After a successful handshake over a transport without write errors a history puts on the wire exactly the protected records of its writes (pieces of at most 2^14 bytes) and closes (one alert each), in order, numbered from 1 under the client key.", "quantifier": "all histories of calls, all servers, both build profiles", "why_tests_cant": "ranges over all interleavings of calls", "anchors": ["src/client.rs:248-257", "src/client.rs:288-360"]}
{"id": "C68", "title": "A record number is never used for two different records", "statement": "Through the TlsClient interface, no two different plaintexts are ever put on the wire under the same key and sequence number, also when the transport fails while a record is being written and the application writes again.", "quantifier": "all sessions, all histories of calls, all transports with any pattern of write failures", "why_tests_cant": "ranges over all failure patterns and histories", "anchors": ["src/tls.rs: TlsWriter::write_record", "src/client.rs: Write for TlsClient"]}
{"id": "C69", "title": "What the application receives was sent by the peer, or a record was forged", "statement": "Let the owner of the session's server keys have sealed a sequence of records. Whatever bytes arrive over the transport, all data that reads return after a successful handshake, taken together, are a prefix of the application data in those records, in order; otherwise the bytes that arrived contain a record that opens under the server's key at some sequence number and that the owner did not make with that number (a forgery against ChaCha20-Poly1305).", "quantifier": "all incoming byte streams shorter than 2^64 bytes, all successful handshakes, all histories of calls, all sequences of records the owner sealed", "why_tests_cant": "ranges over every attacker and every history; a test can only try some alterations", "anchors": ["src/client.rs: Read for TlsClient", "src/tls.rs: TlsReader::read_record, read_message"]}
{"id": "C70", "title": "Client and server that complete a handshake saw the same messages", "statement": "If TlsClient::new succeeds and the server's Finished value was computed over the messages the server sent and received, then the client sent what the server received and received exactly the bytes the server sent (or two different transcripts have the same verify_data). In particular nobody between them can change a byte of the hello, certificate or key exchange messages unnoticed.", "quantifier": "all incoming streams, all server transcripts, all alterations in transit", "why_tests_cant": "ranges over every alteration of every handshake and every server view", "anchors": ["src/client.rs: TlsClient::handshake", "src/handshake.rs: ServerHello", "src/client.rs:180-188, 222-227: the messages that are hashed"]}
{"id": "C71", "title": "How the transport cuts the byte stream does not matter", "statement": "Two transports that deliver the same bytes (and the same interruptions and end) in pieces of different sizes give the same result of the handshake, the same results of every later call, and the same bytes sent.", "quantifier": "all pairs of transports with the same stream, all randomness, all histories of calls", "why_tests_cant": "ranges over all ways of splitting all streams", "anchors": ["src/util.rs: ReadExt", "src/tls.rs: TlsReader", "src/client.rs: TlsClient"]}
{"id": "C72", "title": "Session keys do not come from a small set", "statement": "From what is visible on the wire, the traffic keys of a session cannot be narrowed down to a set that can be searched: there is no function of the public values (hello randoms, client point, key exchange message) listing at most 2^56 candidates that always contains the session keys.", "quantifier": "all completed handshakes with a server key on the curve", "why_tests_cant": "a statement about the set of all reachable keys; a test sees one", "anchors": ["src/crypto/p256.rs: Point256::mult_scalar", "src/cipher/ecdhe.rs: get_random_x, compute_keys"]}
{"id": "C73", "title": "Memory held for incoming data is bounded", "statement": "Whatever the peer sends and whatever the application calls, the connection never holds more than 2^24 + 4 + 2^14 bytes of an incomplete handshake message and 2^14 bytes of application data not yet read.", "quantifier": "all incoming streams, all randomness, all histories of calls, at every point between calls", "why_tests_cant": "an upper bound over all reachable states under an adversarial peer", "anchors": ["src/tls.rs: HandshakeBuffer", "src/tls.rs: TlsReader::read_message", "src/client.rs: TlsClient::read"]}
{"id": "C74", "title": "read returns what has arrived", "statement": "A read with a non-empty buffer, called when some of the peer's data has arrived, returns data without asking the transport for more than it needs to have something to return.", "quantifier": "all data sent by a connected peer, all buffer sizes, all transports", "why_tests_cant": "an in-memory transport never blocks; the property is about when the transport is polled, for all cuts of the stream", "anchors": ["src/client.rs: impl Read for TlsClient", "src/client.rs: TlsClient::read"]}
{"id": "C75", "title": "Records of other protocol versions are not accepted", "statement": "A record whose header carries a version other than TLS 1.2 is not accepted, before or after protection starts; in particular changing the version bytes of a record in transit does not go unnoticed.", "quantifier": "all connection states, all records, all versions, all alterations of version bytes in a session", "why_tests_cant": "noninterference over all pairs of streams that differ in version bytes, through whole handshakes", "anchors": ["src/tls.rs:247-262: read_record", "src/tls.rs: TlsReader", "src/client.rs: TlsClient::handshake"]}
{"id": "C76", "title": "Release builds behave as debug builds", "statement": "Given the same incoming events, randomness and write failures: if no call panics in a debug build, the handshake and every later call return the same in a release build and the same bytes are sent. (Overflow checks and debug assertions only ever turn a result into a panic.)", "quantifier": "all incoming streams, all randomness, all write failures, all histories of calls", "why_tests_cant": "a relation between two builds over all executions", "anchors": ["src/client.rs: TlsClient", "src/tls.rs: TlsWriter, TlsReader", "src/cipher/ecdhe.rs", "src/crypto/p256.rs", "src/crypto/poly1305.rs", "src/crypto/chacha20.rs"]}
{"id": "C77", "title": "A forged message passes Poly1305 for few keys", "statement": "For every message and tag, of the one-time keys (r, s) under which authenticate gives this tag, any other message with any tag passes for a part of at most 8*ceil(L/16)/2^106, L the longer length; for records of legal size at most one in 2^92; N attempts get at most N times that. Every tag of a message belongs to exactly 2^128 keys. decrypt accepts exactly if the record's one-time key is such a key.", "quantifier": "all messages, tags, forgeries, numbers of attempts; counted over all 2^256 one-time keys", "why_tests_cant": "counts over the whole key space", "anchors": ["src/crypto/poly1305.rs: authenticate", "src/cipher/chacha20_poly1305.rs: compute_mac, decrypt"]}
{"id": "C78", "title": "The encrypted bytes tell only lengths", "statement": "After a successful handshake, everything the client sends is: ClientHello, ClientKeyExchange and ChangeCipherSpec in clear, then records in which the key occurs only through the ChaCha20 blocks of the record nonces. If these blocks are chosen at random, every byte string is on the wire for exactly as many choices with one history of calls as with any other that writes the same numbers of bytes in the same order: nothing about the data can be learned but the lengths.", "quantifier": "all servers and handshakes, all histories of calls, all pairs of contents of the same lengths, all byte strings on the wire; counted over all choices of the blocks", "why_tests_cant": "equality of two distributions over all block functions", "anchors": ["src/tls.rs:55-98: TlsWriter::write_record", "src/cipher/chacha20_poly1305.rs: encrypt", "src/client.rs: write, close"]}
{"id": "C79", "title": "Number of bytes on the wire", "statement": "Over a transport without write errors, a successful handshake sends 192 bytes, each later write of n bytes n + 21*ceil(n/16384), close 23, read and flush none; in any history of calls the bytes on the wire are the sum.", "quantifier": "all servers, all histories of calls", "why_tests_cant": "a closed form over all histories and lengths", "anchors": ["src/client.rs: write, close, flush, read", "src/tls.rs:55-98: TlsWriter::write_record, write_data", "src/cipher/chacha20_poly1305.rs: encrypt"]}
{"id": "C80", "title": "Forging a record in a session is improbable with random blocks", "statement": "Let somebody see all records the owner of a key sends and make the incoming stream of the client from them in any way. Of all choices of the cipher blocks that give these records, at most L^2/2^92 (L the length of the stream) let the stream contain a record that opens and is not the owner's record of that number. The client hands out an initial part of the owner's data unless the stream contains such a record for the blocks of ChaCha20.", "quantifier": "all lists of records sealed, all records seen, all streams made from them, all record numbers; counted over all choices of the blocks", "why_tests_cant": "a count over all block functions and all attack strategies", "anchors": ["src/tls.rs:216-290: TlsReader::read_record", "src/cipher/chacha20_poly1305.rs: decrypt", "src/crypto/poly1305.rs: authenticate"]}
{"id": "C81", "title": "A record that fails authentication ends the connection", "statement": "When a protected record does not open, the connection is over: no later call delivers data and the peer is told with a fatal bad_record_mac alert (RFC 5246 section 7.2.2), so an attacker has one attempt at forging a record per connection.", "quantifier": "all connections, all sequences of records that do not open inserted by the network, all buffer lengths, all data sent afterwards", "why_tests_cant": "needs every number of forged records and every content; a test shows one rejected record", "anchors": ["src/client.rs:325-349", "src/tls.rs:247-323", "src/cipher/chacha20_poly1305.rs:68-96"]}
{"id": "C82", "title": "Nothing is sent after close", "statement": "After TlsClient::close has sent its close_notify alert, no further record is sent on the connection: later writes fail (RFC 5246 section 7.2.1).", "quantifier": "all completed sessions, all histories of calls before and after close, all data", "why_tests_cant": "needs every history of calls and every key", "anchors": ["src/client.rs:248-255", "src/client.rs:290-315"]}
{"id": "C83", "title": "One read call takes a bounded number of records", "statement": "A call of read with a buffer of n bytes takes a number of records from the transport that is bounded by a function of n, so a peer cannot keep a call busy without giving it data.", "quantifier": "all connections, all buffer lengths, all streams", "why_tests_cant": "needs all numbers of empty records", "anchors": ["src/client.rs:325-349", "src/tls.rs:394-412"]}
{"id": "C84", "title": "crypto_compare does not reveal where its arguments differ", "statement": "Two runs of crypto_compare on arguments of the same length cannot be told apart by the branches taken, the array positions accessed and the buffer lengths, whatever the contents; in both build modes.", "quantifier": "all pairs of pairs of byte strings of equal length, both build modes", "why_tests_cant": "a statement about pairs of executions on all inputs; unit tests see results, not observations", "anchors": ["src/util.rs: crypto_compare"]}
{"id": "C85", "title": "Deriving the ECDHE keys does not reveal the scalar through timing", "statement": "Computing the client's public key and the shared secret takes the same branches, array positions and buffer lengths for any two secret scalars and any peer point.", "quantifier": "all scalars, all peer points, both build modes", "why_tests_cant": "quantifies over pairs of executions on 2^256 scalars", "anchors": ["src/cipher/ecdhe.rs: compute_keys", "src/crypto/p256.rs: Point256::mult_scalar, double, add, normalize; Int256::mult, reduce_once, sub"]}
{"id": "C86", "title": "Record protection reveals only lengths and the verdict", "statement": "AEAD encryption takes the same branches, positions and lengths for all keys, nonces, plaintexts and additional data of given lengths. Decryption does so up to its last branch, which is whether the record is refused: forged and genuine records are processed alike.", "quantifier": "all keys of 32 and nonces of 12 bytes, all data up to 2^38-128 bytes, all additional data, both build modes", "why_tests_cant": "pairs of executions over all contents", "anchors": ["src/cipher/chacha20_poly1305.rs: encrypt, decrypt, compute_mac", "src/crypto/chacha20.rs", "src/crypto/poly1305.rs"]}
{"id": "C87", "title": "Hashing and key derivation reveal only lengths", "statement": "SHA-256, HMAC-SHA256 and the TLS PRF (for any sequence of requested sizes) take the same branches, positions and lengths for all inputs of given lengths.", "quantifier": "all messages, keys, secrets and seeds of equal lengths within the limits of C40, C41 and C42, all request sequences, both build modes", "why_tests_cant": "pairs of executions over all contents", "anchors": ["src/crypto/sha2.rs: sha256", "src/cipher/prf.rs: hmac_sha256, Prf"]}
{"id": "C88", "title": "Drawing the scalar reveals only the number of rejected candidates", "statement": "Two runs of get_random_x, and of the whole of compute_keys on one server message, that reject the same number of candidates cannot be told apart by branches, positions and lengths.", "quantifier": "all random sources, all server messages, both build modes", "why_tests_cant": "pairs of executions over all random sources", "anchors": ["src/cipher/ecdhe.rs: get_random_x, compute_keys"]}
{"id": "C89", "title": "Messages have the wire format of the RFCs", "statement": "Every handshake message, alert and ECDHE ServerKeyExchange body is written as exactly the bytes RFC 5246 sections 4 and 7 and RFC 4492 section 5 prescribe (field order, prefix widths, message and extension types, code points), these bytes are read back as that message, and whatever is accepted is such a message within the bounds the RFCs give for each field, apart from the ignored length field and bytes dropped after an extension block (C03).", "quantifier": "all handshake messages, alerts and key exchange bodies within bounds; all accepted byte strings", "why_tests_cant": "round trips are blind to a format changed on both sides, and messages of all shapes and sizes cannot be enumerated", "anchors": ["src/tls_item.rs: macros", "src/handshake.rs: Handshake, Extension, ClientHello, ServerHello, CertificateRequest", "src/signature.rs", "src/alert.rs", "src/cipher/ecdhe.rs: EcParameters, ServerEcdhParams, EcdheServerKeyExchange"]}
{"id": "C90", "title": "Decoding from a transport does not depend on how the bytes arrive", "statement": "For every item type, `tls_read` on any `Read` (bytes in arbitrary pieces, then the end, a read of 0 bytes or a failure) returns what `tls_read` returns on the same bytes in memory and leaves the transport right behind the item; if the transport stops inside an item the result is an I/O error, never a panic and never a value. Items that extend to the end of the input (hellos, ObscureData, whole handshake messages) do so when the transport ends; on failing transports they still return.", "quantifier": "all item types, all sequences of pieces, stops and failures of the transport, all bytes", "why_tests_cant": "there are unboundedly many ways to cut a byte stream into pieces and to interrupt it; tests read from in-memory buffers only", "anchors": ["src/tls_item.rs:15-316", "src/macros.rs:38-57", "src/util.rs:82-150", "src/handshake.rs:203-264"]}
{"id": "C91", "title": "Writing an item to a transport sends exactly its encoding", "statement": "For every item, `tls_write` to any `Write` that returns Ok has sent exactly the encoding of the item; if the transport fails, a prefix of it and the I/O error is returned; without a failure of the transport the write succeeds. An item that cannot be encoded is refused before anything is sent. What was written is read back at the other end however it is cut up.", "quantifier": "all item types and values, all points at which the transport can fail", "why_tests_cant": "the failure can come at any call and after any number of bytes, for any value", "anchors": ["src/tls_item.rs:15-316", "src/macros.rs:15-36", "src/util.rs:155-190", "src/cipher/mod.rs:70-110"]}
{"id": "C92", "title": "A truncated stream is not taken for a complete one", "statement": "TlsClient::read reports the end of the data only after the peer's close_notify; if the connection is ended or reset before, by the network or an attacker, the application can tell.", "quantifier": "all data, all places at which the connection can be cut, all sequences of read calls", "why_tests_cant": "the claim compares the results of all sequences of calls over all pairs of a cut and a proper end", "anchors": ["src/client.rs:312-345", "src/tls.rs:394-413"]}
{"id": "C93", "title": "A handshake takes a bounded amount of data", "statement": "Whatever the server sends, TlsClient::new returns (with a session or an error) after taking a bounded amount of data from the transport; a hostile server cannot keep a client in the handshake by sending more and more.", "quantifier": "all transports (any bytes, any splitting, any errors), all random generators, both build modes", "why_tests_cant": "the bound is over all behaviours of a hostile server, including endless streams of warnings, empty records and fragments", "anchors": ["src/client.rs:45-223", "src/tls.rs:247-323", "src/tls.rs:331-392"]}
{"id": "C94", "title": "Record numbers are not used twice, however long the session", "statement": "A session never protects two records with the same number (hence nonce); RFC 5246 6.1: sequence numbers may not wrap, an implementation must renegotiate or close before.", "quantifier": "all sessions, all histories of calls of any length", "why_tests_cant": "the counter has 64 bits: no test reaches its end", "anchors": ["src/tls.rs:115-156"]}
{"id": "C95", "title": "read_exact and read_to_end", "statement": "read_exact on a TlsClient returns exactly the next n bytes the peer sent, or UnexpectedEof if there are fewer; read_to_end returns exactly the bytes up to the peer's close_notify.", "quantifier": "all data, all cuts into records and transport reads, all buffer sizes std may use (also depending on what has been read), all histories of reads before", "why_tests_cant": "std's buffer sizes and the record boundaries combine in infinitely many ways; ending at close_notify needs a peer that goes on sending", "anchors": ["src/client.rs:318-349", "src/tls.rs:394-413"]}
{"id": "C96", "title": "A session with a conforming server, from beginning to end", "statement": "With a server that follows the protocol and a transport without write errors, TlsClient::new succeeds, each later read hands out the next bytes of the server's data (fewer only at its end, then none), write, flush and close succeed, and what is sent is exactly the flight of RFC 5246 followed by the protected records of the calls, whatever the order of the calls.", "quantifier": "all values and draws (with a valid client point), all fragmentations, all transports, all data, all histories of calls up to 2^64-2 records, both build modes", "why_tests_cant": "all interleavings of calls with all cuts of the stream", "anchors": ["src/client.rs:32-349"]}
{"id": "C97", "title": "The example program", "statement": "examples/cloudflare.rs, connected to any server that follows the protocol, sends the client's flight, the request and close_notify, prints the first 4096 bytes of the answer (filled up with zeros) and does not panic.", "quantifier": "all servers that follow the protocol, all answers, all fragmentations, all draws, both build modes", "why_tests_cant": "it needs the network, and a test shows one answer of one server", "anchors": ["examples/cloudflare.rs:6-20"]}
{"id": "C98", "title": "A ChaCha20 object never hands out the same block of key stream twice within the amount of data its comment allows", "statement": "For a `ChaCha20` made by `new(key, nonce)` and any history of `next` and `encrypt` calls, each call returns what RFC 8439 gives with the counter where the calls before left it, and no two blocks of key stream used come from the same cipher state as long as no more than the documented 2^70 bytes are used.", "quantifier": "for all keys, nonces, histories of calls and data, both build modes", "why_tests_cant": "The repetition only appears after 2^38 bytes under one nonce; the positive part is about all histories of calls.", "anchors": ["src/crypto/chacha20.rs:69-109"]}
{"id": "C99", "title": "TlsWriter and TlsReader are a faithful channel for messages", "statement": "For any history of write_handshake, write_alert, write_change_cipher_spec and write_application_data on a TlsWriter, with set_encryptor and set_iv called at any one place in it, over a transport that works: all calls succeed, and a TlsReader that gets the bytes and calls set_decryptor and set_iv at the same place is handed by read_message exactly the messages sent, in order (application data in pieces of at most 2^14 bytes), and takes exactly the bytes that were sent.", "quantifier": "for all histories (below 2^64 records), all messages a peer may send including those longer than a record, all keys and IVs, all cuts of the byte stream, all continuations, all combinations of build modes", "why_tests_cant": "It is a statement about all interleavings of kinds of messages, sizes, key changes and transport cuts.", "anchors": ["src/tls.rs:86-191", "src/tls.rs:214-392"]}
{"id": "C100", "title": "flush delivers what was written", "statement": "With a transport that buffers small writes (such as std's BufWriter), everything the client has written has been delivered when flush returns, and the handshake flushes before it waits for the server.", "quantifier": "for all sessions, histories of calls, buffer capacities and data", "why_tests_cant": "Tests over sockets or in-memory vectors never buffer; the claim is about all transports.", "anchors": ["src/client.rs:55-91", "src/client.rs:295-297", "src/tls.rs:115-156"]}
{"id": "C101", "title": "Extensions of the ServerHello are checked against those offered", "statement": "`TlsClient::new` succeeds only if every extension in the ServerHello has a type that is in the ClientHello (elliptic_curves, ec_point_formats, signature_algorithms), none comes twice, and a list of point formats contains `uncompressed` (RFC 5246 section 7.4.1.4, RFC 4492 section 5.2).", "quantifier": "for all servers, all random bytes of the client, all ways to cut the messages into records, both build modes", "why_tests_cant": "The claim is about every ServerHello; tests can only show particular unsolicited extensions being refused. The comment in the code says unknown extensions are refused because they are not understood, but the decoder keeps them as `Unknown`.", "anchors": ["src/client.rs:118-120", "src/handshake.rs:97-163", "src/handshake.rs:186-222"]}
{"id": "C102", "title": "Exactly which server streams are accepted", "statement": "With a transport that takes what is written, `TlsClient::new` succeeds if and only if what the server sends begins with non-empty handshake records of at most 2^14 bytes in clear, a ChangeCipherSpec record, and handshake records that open under the server's key with numbers 0, 1, …, and these carry, however cut, ServerHello, Certificate, ServerKeyExchange and ServerHelloDone within the bounds of RFC 5246 and the Finished message of the key schedule, whose first bytes (not all) may be in clear. What follows is left unread. The version bytes of records make no difference.", "quantifier": "for all byte streams of the server, all random bytes of the client, both build modes", "why_tests_cant": "An equivalence over all streams: tests show particular streams accepted or refused, not that nothing else is accepted and nothing of this kind refused.", "anchors": ["src/client.rs:54-246", "src/tls.rs:247-323", "src/tls.rs:336-440", "src/handshake.rs:223-260"]}
{"id": "C103", "title": "What the error of a failed handshake says", "statement": "If TlsClient::new returns an error, the kind of the error names the first thing that was wrong. IoFailure: the transport ended or failed (nothing else). BadRecordMac: a protected record does not open under RFC 8439 with the server key that follows from the first flight. RecordOverflow: a record is longer than 2^14 bytes in the clear or announced with more than 2^14+2048. AlertReceived: the server sent an alert where a handshake message was expected. IllegalParameter: the ServerHello does not agree to the offer, or the point of the ServerKeyExchange is refused. DecodeError: a value or a length in a handshake message is not allowed. DecryptError: a protected Finished has the wrong verify data. InternalError: something inside the client went wrong, never something that the server sent. UnexpectedMessage: something else came than what was expected.", "quantifier": "all transports, chunkings, read and write failures, random bytes, both build profiles", "why_tests_cant": "An error is caused by one of many positions, cuts of messages into records and encodings; a test sees one cause per run and cannot exclude that another cause yields the same kind.", "anchors": ["src/client.rs:54-274", "src/tls.rs:247-440", "src/tls_result.rs", "src/handshake.rs:203-264", "src/tls_item.rs"]}
{"id": "C104", "title": "The calls of an established connection show the lengths, not the keys or the data", "statement": "Take two established connections that agree on the record numbers, on the lengths of the application data records the server sends, on the pieces in which the transport delivers them and on the fate of the coming writes. Whatever their keys, IVs, the data the server sends and the data written: any two histories of read, write, flush and close calls with the same buffer lengths cannot be told apart by branches taken, array positions touched, buffer lengths and calls on the transport, and their results agree except for the bytes delivered.", "quantifier": "all pairs of keys, IVs and contents, all histories of calls, all deliveries by the transport and all write failures, both build modes", "why_tests_cant": "a statement about pairs of executions over all keys and all histories; no test sees branches and addresses", "anchors": ["src/client.rs: read, write, write_all, close, send_tls_alert", "src/tls.rs: write_record, write_data, read_record, read_message, read_application_data", "src/cipher/chacha20_poly1305.rs: encrypt, decrypt"]}
{"id": "C105", "title": "The handshake's second flight shows no secret", "statement": "The client's second flight (deriving the master secret, the keys and the Finished value, and sending ClientKeyExchange, ChangeCipherSpec and Finished) is the same sequence of branches, array positions, buffer lengths and calls on the transport for any two premaster secrets of the same length, whatever the randoms and the contents of the messages, as long as the messages have the same lengths; and the check of the server's Finished shows the lengths and the verdict.", "quantifier": "all premaster secrets, randoms, client keys and server messages of the same lengths, all write failures, both build modes", "why_tests_cant": "pairs of executions over all secrets; branches and positions are not visible to a test", "anchors": ["src/client.rs: handshake (lines 134-243)", "src/cipher/prf.rs", "src/crypto/sha2.rs", "src/util.rs: crypto_compare"]}
{"id": "C106", "title": "The record layer takes keys once", "statement": "On a TlsWriter or TlsReader, in any history of public calls that goes on after errors and caught panics, the first set_encryptor, set_decryptor and set_iv take effect (the first two restart the record number at 0) and every later one panics and leaves the object as it was; so the keys in use are always the first that were given. write_application_data and read_application_data called before keys are installed panic, and nothing is sent or read.", "quantifier": "All histories of calls of any length and with any arguments, all transports with any faults, both build modes.", "why_tests_cant": "The claim is about every interleaving of calls and failures; a test tries a few short histories on a healthy transport.", "anchors": ["src/tls.rs:75-113", "src/tls.rs:186-191", "src/tls.rs:213-242"]}
{"id": "C107", "title": "What the server sends decides how `TlsClient::new` ends, in exactly one way", "statement": "Suppose the transport takes everything that the client writes. Then what TlsClient::new returns (a client, an error of which kind, a panic) is a relation on the bytes that the server sends, the transport's failures to read and the client's random bytes, with exactly one value, however the transport cuts the bytes into chunks and whatever the peer cuts into records. Records are taken one at a time and only while the handshake bytes received do not make a whole message. The result is that of the first of these that is not as expected: a ServerHello, agreed to by version, suite and compression; a Certificate; a ServerKeyExchange; keys from it; a ServerHelloDone; a ChangeCipherSpec; a Finished under the server's key; its verify data. In place of an expected handshake message, an alert gives AlertReceived, another message UnexpectedMessage, a message that does not decode the error of its body, a record that does not come or is refused the error of the record. It is success if and only if all of them are as expected.", "quantifier": "all byte streams from the server with all failures and cuts, all random bytes, both build profiles", "why_tests_cant": "The outcome depends on every position at which the server's bytes can deviate and on every way of cutting them; a test fixes one deviation and one cut, and cannot show that no stream has two outcomes or none.", "anchors": ["src/client.rs:27-41", "src/client.rs:54-246", "src/tls.rs:247-440", "src/handshake.rs:329-380"]}
{"id": "C108", "title": "What the peer sends decides what `read` returns, in exactly one way", "statement": "On an established connection, whatever bytes the transport delivers, cut and interrupted in whatever way, the results of any sequence of read calls are determined by what arrives: the application data of the records, in order, up to the first record that is refused or missing or is another message. A call that asks for at most what is there returns exactly that much of it. A call that asks for more returns what is there if an error stops it, whatever the error, and the next call goes on after it. It panics if what stops it is a handshake message, a ChangeCipherSpec, an alert other than close_notify, or a record that opens to more than 2^14 bytes. A close_notify is passed over.", "quantifier": "all transports, all contents of the client's buffers, all sequences of buffer lengths", "why_tests_cant": "ranges over all byte streams with errors at all positions and all sequences of calls", "anchors": ["src/client.rs: Read for TlsClient::read", "src/tls.rs: read_application_data, read_message, read_record"]}
{"id": "C109", "title": "What the transport does decides what all calls return and what they send, in exactly one way", "statement": "After a completed handshake, over a transport that delivers anything and refuses writes at any places, the results of any sequence of read, write, flush and close calls and all the bytes they put on the wire are determined. read is as in C108, whatever is written in between. write(buf) sends buf in records of 2^14 bytes and a rest under the client's key, each in five buffers (type, the two bytes of the version, length, ciphertext), and close sends the alert (2, 0) in one record. A call whose buffers are all taken succeeds, write with buf.len(). At the first buffer that the transport does not take the call ends with IoFailure; what the transport took of it remains on the wire, the rest is never sent, nothing is said to the peer, and the next record that is written has the same number as the record that failed. No call does anything about an earlier failure or an earlier close.", "quantifier": "all transports with all faults of reading and writing, all sequences of calls with all arguments, both build profiles", "why_tests_cant": "A test fixes one sequence of calls and one place of failure; the claim is that every history has exactly one behaviour and says which, including all positions of faults inside records and all interleavings of reading and writing.", "anchors": ["src/client.rs:248-257", "src/client.rs:288-360", "src/tls.rs: write_record, write_data, write_alert, write_application_data"]}
{"id": "C110", "title": "A whole program over any transport has exactly one behaviour", "statement": "Take a program that calls TlsClient::new and then, if it succeeded, any sequence of read, write, flush and close calls, over a transport that delivers anything and refuses writes at any places. The result of new, the results of all calls and every byte on the wire are determined by what the transport delivers and refuses and by the random bytes drawn. The ClientHello goes out in five buffers; if one is not taken, new returns IoFailure and sends nothing more. If the server's first flight deviates, new returns the error of the first deviation (C107) after the fatal alert for it, in the clear; for IoFailure there is no alert; if the alert cannot be written, IoFailure is returned instead of the error. Otherwise ClientKeyExchange, ChangeCipherSpec and the protected Finished go out in fifteen buffers; if one is not taken, IoFailure and nothing more. If the server's second flight deviates, its error is returned after the alert for it, under the client's key as record number 1. Otherwise new succeeds and the calls are as in C109. Where new panics it sends no alert.", "quantifier": "all transports with all faults of reading and writing, all random bytes, all sequences of calls with all arguments, both build profiles", "why_tests_cant": "A test fixes one transport, one server and one sequence of calls; the claim gives for every one of them the only possible history, including every position of a fault in the handshake, in the alert that answers an error and in the data.", "anchors": ["src/client.rs:27-41", "src/client.rs:54-246", "src/client.rs:248-271", "src/client.rs:288-360", "src/tls.rs: write_record, write_data, write_alert, read_message"]}
{"id": "C111", "title": "How the transport takes the bytes does not matter", "statement": "Take the transport down to single calls of Write::write: each may take any number of bytes, return Ok(0), fail with Interrupted or with another error. Every write_all then either passes on its whole buffer, whatever short writes and interruptions there are, or ends with an error at the first Ok(0) or error other than Interrupted, the bytes taken before it being on the wire. A whole program (new, then any calls) returns and sends what C110 says for a transport that takes or refuses whole buffers, namely those this one takes or gives up on. In particular all transports that take at least one byte at a time or are interrupted give the same results and the same bytes on the wire.", "quantifier": "all finite scripts of answers to write calls, all incoming streams, all random bytes, all sequences of calls, both build profiles", "why_tests_cant": "The ways to cut five buffers per record into short writes with interruptions and failures in between are unbounded; a test has one of them.", "anchors": ["src/util.rs:69-74", "src/util.rs:152-187", "src/tls.rs:115-191", "src/client.rs:27-41", "src/client.rs:288-315"]}
{"id": "C112", "title": "A whole handshake, and a whole session, shows no secret", "statement": "Take two handshakes that succeed with servers that send the same messages in clear, in the same records, and Finished in records of the same lengths, delivered in pieces of the same lengths, with writes that meet with the same fate, and with the same number of random bytes drawn. The clients' randoms and secrets, the shared secrets, all keys and both Finished values may differ. The branches taken, array positions touched, buffer lengths and calls on the transport in TlsClient::new are the same; and so are those of any later calls of read, write, flush and close with the same buffer lengths, when the servers then send application data in records of the same lengths.", "quantifier": "all pairs of successful handshakes that agree on the public part, all histories of calls after them; both build profiles (holds of release builds only)", "why_tests_cant": "a statement about pairs of executions over all secrets and all server behaviours; branches and positions are not visible to a test", "anchors": ["src/client.rs:27-41", "src/client.rs:54-246", "src/tls.rs: read_record, read_message, read_handshake, read_change_cipher_spec", "src/cipher/ecdhe.rs: compute_keys", "src/cipher/prf.rs"]}
{"id": "C113", "title": "No public call sends anything unprotected or lets in anything unauthenticated", "statement": "After TlsClient::new returned Ok, let a caller use every public method: read, write, flush, close and send_tls_alert of the client, and on its public fields writer and reader the methods of the record layer (write_record with any record, write_data, write_handshake, write_alert, write_change_cipher_spec, write_application_data, set_encryptor, set_iv, read_message, read_application_data, read_handshake, read_change_cipher_spec, set_decryptor, set_iv), in any order, going on after errors and panics. Then (sending) everything written to the transport after the client's flight is protected records under the client's keys of this session, numbered from 1 on, of each of them either all bytes or, when the call failed, a first part; a record of which not all bytes went out does not use up its number; if no call failed the numbers are consecutive and, for fewer than 2^64 - 1 records, no nonce occurs twice. And (receiving) every message or data handed out comes from records in the stream behind the handshake that open under the server's key with consecutive numbers over all calls; each call's message is from the records that call opened, and the bytes that TlsClient::read hands out are without gaps the application data of the records its own calls opened.", "quantifier": "all builds, servers, transports (with any faults), random bytes, and all finite sequences of public calls with all arguments, except what the caller does to the transport itself through get_mut", "why_tests_cant": "the number of interleavings of some twenty public methods, with every possible failure on the way, is unbounded; a test can only try some of them", "anchors": ["src/client.rs:19-24", "src/client.rs:248-349", "src/tls.rs:83-192", "src/tls.rs:213-430"]}
{"id": "C114", "title": "A handshake that fails shows nothing of the client's secrets (release builds)", "statement": "In a release build, take two calls of TlsClient::new on the same incoming bytes (same pieces, same faults), with transports that treat writes alike, and with random generators that reject equally many blocks but otherwise give any bytes. If both calls fail before a protected record has been accepted, they return the same error kind, execute the same branches, table accesses, sizes and transport calls (including the alert, in clear or encrypted), and write equally many bytes. If one of them fails before it has a key for reading, the other fails too, with the same error and the same observations.", "quantifier": "for all incoming bytes (fewer than 2^64), transports, random bytes, private keys and points of failure", "why_tests_cant": "Timing is not observable by a unit test's assertions, and the claim compares every pair of random inputs for every malformed or truncated server flight.", "anchors": ["src/client.rs:27-41", "src/client.rs:54-246", "src/tls.rs:176-182"]}
{"id": "C115", "title": "Handing out the transport does not weaken the client's own records", "statement": "After TlsClient::new (or from_tcp) returned Ok, let the caller mix the public methods of C113 with any use of the transports that reader() and writer() hand out: reading from them, writing to them, replacing them. Each method call then appends to what is in the transport at that time pieces of protected records under the client's keys of this session and nothing else, whole ones if it succeeds, numbered from 1 on over all calls. Each method call takes from what the transport then delivers records that open under the server's key with numbers that continue from call to call, so no number is accepted twice and none is left out, and hands out only what these records contain. from_tcp is new over the two directions of the connection; if the stream cannot be cloned it returns IoFailure and nothing is sent or read.", "quantifier": "for all servers, handshakes, transports, histories of calls and uses of the transports", "why_tests_cant": "It quantifies over everything a caller can do with the transport between any calls; a test can only try a few interleavings.", "anchors": ["src/client.rs:43-51", "src/client.rs:274-286", "src/tls.rs:96-98", "src/tls.rs:225-227"]}
{"id": "C116", "title": "Every injected record is one try, and a try hardly ever succeeds", "statement": "Let somebody see all records the owner of a key sends and make the incoming stream of the client from them in any way. The client goes through the stream in one way; a record that is not the owner's next one is one try to forge. In any history of calls the application receives an initial part of the owner's data unless a try succeeds; and of all choices of the cipher blocks that give the records seen, at most (number of tries) / 2^92 let one succeed. The stream has at most one try for 21 bytes received after the ChangeCipherSpec. This sharpens C80 from the square of the length of the stream to its length.", "quantifier": "all handshakes that succeed, all transports, all histories of calls, all lists of records sealed; counted over all choices of the blocks", "why_tests_cant": "a count over all block functions and all attack strategies; the number of tries depends on what the reader does after every kind of failure", "anchors": ["src/tls.rs:247-323: TlsReader::read_record", "src/client.rs:325-349: read", "src/cipher/chacha20_poly1305.rs: decrypt"]}
{"id": "C117", "title": "Reading costs work in proportion to the data, whatever the buffer sizes", "statement": "On the way from the record layer to the application's buffer, `TlsClient::read` moves each byte of application data a small fixed number of times. How the application sizes its buffers does not change that: taking a record byte by byte is not much more work per byte than taking it at once.", "quantifier": "for all sessions, all data the server sends, all histories of calls with all buffer sizes", "why_tests_cant": "A test measures a few buffer sizes on a few records; the number of moves is a sum over all calls of a session that depends on record lengths and buffer sizes together.", "anchors": ["src/client.rs:325-349", "src/client.rs:319-321"]}
{"id": "C118", "title": "The error of a refused connection tells which alert the server has sent", "statement": "If the server answers with an alert instead of the message that the client waits for, at any point of the handshake, the error that `TlsClient::new` returns tells which alert it was: its kind is AlertReceived and its text names the description, or, for an alert that the library does not know, its text shows the bytes. Conversely an error of kind AlertReceived always names an alert that the server has sent.", "quantifier": "for all servers, all points of the handshake, all alerts in clear or protected, all ways the transport cuts its data, both build modes", "why_tests_cant": "A test plays a handful of alerts at one or two points of the handshake; the claim is about every alert at every point, behind half messages and under record protection, and about every error of this kind.", "anchors": ["src/tls.rs:354-376", "src/tls.rs:414-430", "src/client.rs:56-63", "src/tls_result.rs:21-34"]}
{"id": "C119", "title": "A write that returns an error has delivered nothing of its buffer", "statement": "As the contract of `std::io::Write::write` has it, if `write` on a connected client returns an error, the peer that reads with the same key gets none of the bytes of the buffer, so that a program may make the call again without the peer getting data twice.", "quantifier": "for all connected clients, all buffers of any length, all ways the transport fails (after any number of pieces, having taken any part of a piece), both build modes of both sides", "why_tests_cant": "A test makes a transport fail at a few points for a few small buffers, where the claim holds; it fails only for buffers of more than one record and failures between records, and what the peer gets has to be followed through record protection.", "anchors": ["src/client.rs:288-317", "src/tls.rs:115-168", "src/tls.rs:186-191"]}
{"id": "C120", "title": "A record that write_record takes arrives at the reader", "statement": "Whatever the public fields of a `Record` say (content type, version, fragment of any length), `TlsWriter::write_record` either sends it, and a `TlsReader` with the same keys and record number gives back the same record, or refuses it with an error and sends nothing.", "quantifier": "for all records with fragments of at most 2^38-144 bytes, all keys, IVs and record numbers short of the last, with and without keys, all ways the transport cuts the bytes and whatever follows, both build modes of both sides", "why_tests_cant": "Tests send a few records of ordinary size; the claim is about each length, and turns on the limits 2^14, 2^14+2032 and 2^14+2048 of the two sides fitting together.", "anchors": ["src/tls.rs:36-73", "src/tls.rs:115-156", "src/tls.rs:246-330"]}
{"id": "C121", "title": "Warnings and HelloRequests between the server's messages do not end the handshake", "statement": "A server may send a HelloRequest, which RFC 5246 (7.4.1.1) has the client ignore while it is negotiating, or an alert of level warning other than close_notify (7.2.2; RFC 6066 uses unrecognized_name in this way) between the messages of its first flight. `TlsClient::new` with a server that conforms otherwise returns a connected client all the same.", "quantifier": "for all conforming servers, all positions up to the ChangeCipherSpec, all alert descriptions the library knows, all ways the messages are cut into records and the transport cuts its data, all random bytes, both build modes", "why_tests_cant": "A test plays one warning at one position with one server; the claim is about each of them at each position, and its failure is shown for all of them, not for one.", "anchors": ["src/client.rs:53-66", "src/client.rs:94-190", "src/tls.rs:414-434"]}
{"id": "C122", "title": "The handshake does not stand still waiting on both sides", "statement": "Over a transport that delivers what it is given, the client sends its ClientHello before it waits for anything, and, as soon as the server's first flight has come, all of its second flight before it waits for anything more. So with a server that sends its flight only after the ClientHello, and its ChangeCipherSpec and Finished only after the client's Finished, new returns Ok: the two never wait for each other.", "quantifier": "all draws of the client, all conforming servers and values, all cuts of their records, all ways the bytes come from the transport, whatever follows the flight (or nothing)", "why_tests_cant": "tests of the handshake feed a recorded stream that is all there from the beginning, so that they pass also for a client that reads ahead or holds back a message; a test against one live server shows one timing", "anchors": ["src/client.rs:27-41", "src/client.rs:54-246", "src/tls.rs:115-150"]}
{"id": "C123", "title": "What has not come yet does not matter", "statement": "What the client does depends only on the bytes it has taken from the transport. When new has returned Ok, or an error that is not an I/O error, nothing that comes later from the server would have changed the result, what was sent, or the keys, and all of it is left for the calls to come; when it stops for want of bytes, what it has sent until then is the beginning of what it sends if more comes. The same holds of one message of the record layer, and of a read that fills its buffer. So the client can be taken as reacting to a server step by step: it never takes back anything it has sent.", "quantifier": "all incoming streams, conforming or not, and all continuations of them; all draws and all faults of the transport; all buffer sizes; all servers as functions of what they have received", "why_tests_cant": "a test compares two particular streams; that no code path looks ahead, also on malformed input, is a statement about all pairs of streams", "anchors": ["src/client.rs:27-41", "src/client.rs:54-246", "src/client.rs:325-349", "src/tls.rs:247-323", "src/tls.rs:336-392", "src/util.rs:88-113"]}
{"id": "C124", "title": "A connection that ends during the handshake is reported as such", "statement": "When the connection to a server that follows the protocol ends, by end of file or by an error of the transport (a timeout, say, even if more comes after it), before the last byte of the server's part of the handshake has come, then new returns an I/O error, wherever in the stream that is: never Ok, never another error, never a panic, and it does not hang. The client sends no alert: what it has sent is the beginning of its part of the handshake, with the ClientHello at least, and all of it if the server's first flight had come. Whatever the server sends, an error of the transport and the end of file at the same place have the same effect.", "quantifier": "all places at which the stream can be cut, in the middle of a record header, a fragment, a message or a tag; end of file and errors; all values of the server, all cuts of its messages into records, all ways the bytes come in; all draws", "why_tests_cant": "the stream of a handshake has thousands of bytes and can be cut after each, for all values of both sides; the repository has no handshake against a server in its tests", "anchors": ["src/client.rs:27-41", "src/client.rs:54-246", "src/client.rs:259-271", "src/tls.rs:247-323", "src/tls.rs:336-392", "src/util.rs:88-113"]}
{"id": "C125", "title": "Errors on the writing side during the handshake stop it and nothing else", "statement": "Whatever the server sends and whatever the transport does with the bytes the client writes, new does what it does over a transport that takes everything, with the same result and the same bytes sent, or it returns an I/O error and has sent the beginning of those bytes. A transport that takes everything in the end, a few bytes at a time and with interruptions, makes no difference; and when new returns Ok everything has been sent. When the connection ends before the server's part of the handshake has come, the result is an I/O error whatever becomes of the writes.", "quantifier": "all incoming streams, conforming or not; all ways a transport can take, cut, interrupt or refuse writes; all draws", "why_tests_cant": "each of the writes of a handshake can fail after any number of bytes, for all that a server can send; a test fixes one place and one server", "anchors": ["src/client.rs:27-41", "src/client.rs:54-246", "src/client.rs:259-271", "src/tls.rs:115-191", "src/util.rs:69-84"]}
