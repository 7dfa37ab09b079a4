#!/usr/bin/env python3
"""Writes /verif/properties.jsonl. Kept as a script only so that the list stays easy to edit."""
import json
P = []
def p(title, statement, quantifier, why, *anchors):
    P.append(dict(id=f"C{len(P)+1:02d}", title=title, statement=statement, quantifier=quantifier,
                  why_tests_cant=why, anchors=list(anchors)))
H="src/handshake.rs"; T="src/tls.rs"; I="src/tls_item.rs"; C="src/client.rs"; U="src/util.rs"; P2="src/crypto/p256.rs"
# ---- serialisation
p("Handshake messages round-trip",
  "Writing any handshake message whose parts were built through the public constructors (and whose body is shorter than 2^24 bytes) and reading the bytes back yields the same message, and the reader consumes exactly those bytes.",
  "all handshake messages of all nine kinds, all vector lengths and contents",
  "the message space is unbounded (nested variable-length vectors); the repo tests one ClientHello",
  f"{H}: Handshake::tls_write, Handshake::tls_read", f"{I}: tls_struct!, tls_vec!, tls_enum!, tls_array!, tls_option!")
p("tls_size is the number of bytes written",
  "For every serialisable item whose tls_write succeeds, tls_size equals the number of bytes tls_write emits.",
  "all items of all serialisable types", "length prefixes are computed from tls_size, so one wrong case corrupts the framing of every enclosing message",
  f"{I}: TlsItem::tls_size", f"{H}: Extension, Handshake", "src/cipher/mod.rs: CipherSuite")
p("Decoding is canonical (transcript fidelity)",
  "If Handshake::tls_read accepts a byte string (with correct length header), then re-serialising the decoded message, when that succeeds, gives back exactly the received bytes. The client hashes re-serialised messages for Finished, so this is what makes the transcript equal the peer's.",
  "all byte strings accepted as a handshake message", "must hold for every accepted encoding, including those no honest serializer produces",
  f"{H}: Handshake::tls_read", f"{I}: tls_option!", f"{C}: handshake (msgs)")
p("Decoding is total and panic-free",
  "Reading a handshake message from any byte string terminates and returns Ok or Err; it never panics, never loops, and unconsumed trailing bytes are reported as an error.",
  "all byte strings", "an adversary chooses the bytes; tests sample a handful", f"{H}: Handshake::tls_read", f"{I}: tls_vec! tls_read loop")
p("Vector bounds are enforced",
  "A tls_vec constructor succeeds exactly when the serialised size of its items lies in [min,max]; every vector produced by decoding satisfies the same bounds.",
  "all item lists for every vector type", "ranges over all list lengths including both boundaries", f"{I}: tls_vec! new, tls_read")
p("Length prefixes never truncate",
  "Every length field written (vector prefix, extension length, handshake length) equals the true length of what follows, for every item the public constructors accept.",
  "all constructor-accepted extensions and handshake messages", "the failure needs a 32767-element list: `as u16`/24-bit truncation happens only at the boundary",
  f"{H}: tls_hello_extension! tls_write (`as u16`)", f"{H}: tls_handshake! tls_write", f"{I}: tls_vec! tls_write")
p("Enums accept exactly their code points",
  "Each tls_enum decodes a number iff it is one of its listed code points, the decoded value writes back the same number, and all other numbers yield DecodeError.",
  "every u8/u16 value for every enum type", "tests touch a few code points; the claim is about all 256/65536", f"{I}: tls_enum!", "src/alert.rs", "src/signature.rs", f"{H}: NamedCurve, ECPointFormat, CompressionMethod, ClientCertificateType")
p("Unknown cipher suites are inert",
  "Any two bytes other than 0xcc,0xa8 decode to UnknownCipherSuite, which can never be written, and a ServerHello carrying it is rejected with IllegalParameter.",
  "all 65535 unknown suite ids", "ranges over all ids and all ServerHello contents", "src/cipher/mod.rs: cipher_suite!", f"{C}: handshake")
# ---- record layer
p("Handshake reassembly is independent of record boundaries",
  "For every sequence of handshake messages and every way of cutting their concatenated bytes into fragments, feeding the fragments to HandshakeBuffer and polling get_message delivers exactly the messages in order.",
  "all message sequences, all fragmentations, all poll interleavings", "exponentially many fragmentations", f"{H}: HandshakeBuffer::add_record, get_message")
p("An incomplete handshake message is never delivered or lost",
  "While the buffered bytes are a strict prefix of a message, get_message returns Ok(None) and keeps all bytes; a complete message with unknown type is dropped and reported as UnexpectedMessage, leaving the following bytes intact.",
  "all buffer contents", "must hold at every cut point", f"{H}: HandshakeBuffer::get_message")
p("Reading is independent of transport chunking",
  "For any schedule of short reads of the underlying Read, as long as it delivers the same bytes, every TlsReader/ReadExt operation returns the same result and leaves the same bytes unread; if the stream ends too early the result is an I/O failure.",
  "all byte streams and all schedules of non-empty short reads", "schedules are unbounded; a test transport usually delivers everything at once", f"{U}: ReadExt::fill_exact, read_exact, read_u8, read_be_u16", f"{T}: TlsReader::read_record")
p("A transient transport error does not corrupt the stream",
  "If the underlying Read reports ErrorKind::Interrupted in the middle of a record, no received byte is lost: retrying yields the record that was sent.",
  "all positions of an interruption in a byte stream", "depends on where in a record the interruption falls", f"{U}: ReadExt::fill_exact")
p("Record layer round-trip",
  "For any content type and data of any length, what write_data emits is read back by a TlsReader holding the matching decryptor, IV and sequence number as records whose fragments concatenate to the data, with both sequence numbers advanced equally.",
  "all data lengths, content types, keys, IVs, sequence numbers, with and without encryption", "lengths across the 2^14 boundary and arbitrary histories of earlier records", f"{T}: TlsWriter::write_data, write_record, TlsReader::read_record")
p("Fragmentation",
  "write_data splits n bytes into ceil(n/2^14) records, each non-empty and of at most 2^14 plaintext bytes, in order, whose concatenation is the input, and never panics on length.",
  "all data lengths", "unbounded lengths", f"{T}: TlsWriter::write_data, Record::new")
p("Nonce uniqueness",
  "Over any sequence of operations on one TlsWriter, no two calls of the encryptor use the same nonce (for different plaintext), including when the transport's writes fail and the caller tries again.",
  "all operation histories, including transport write failures at every point", "needs a failure at a particular point followed by a retry", f"{T}: TlsWriter::write_record (write_count)", f"{C}: send_tls_alert, write_all")
p("Nonce and additional data follow RFC 7905 / RFC 5246",
  "The k-th encrypted record uses nonce = IV xor (0^4 || k as 64-bit big endian) and additional data k || type || version || plaintext length, on both the writing and the reading side.",
  "all k < 2^64, all IVs, record types and lengths", "tests can only sample sequence numbers", f"{T}: write_record, read_record", f"{U}: u64_be_array")
p("Application data integrity against an active attacker",
  "If the decryptor accepts only (nonce, ciphertext, additional data) triples the peer's encryptor produced, then for every byte stream an attacker delivers (dropping, reordering, replaying, injecting, truncating), the concatenation of all application data returned by successive reads is a prefix of the data the peer wrote.",
  "all attacker byte streams, all read histories including after errors", "quantifies over all adversaries", f"{T}: TlsReader::read_record, read_application_data", f"{C}: Read for TlsClient")
p("Over-long records are refused with an error",
  "A record header announcing more than 2^14+2048 bytes, an unencrypted record of more than 2^14 bytes and an encrypted record whose plaintext exceeds 2^14 bytes are all refused with RecordOverflow and never delivered.",
  "all record lengths and contents", "boundary lengths for arbitrary content under arbitrary keys", f"{T}: TlsReader::read_record")
p("Receiving arbitrary bytes never panics",
  "For any bytes arriving from the network, read_message, read_handshake and read_change_cipher_spec return Ok or Err; they never panic.",
  "all byte streams, with and without encryption", "adversarial input space", f"{T}: TlsReader::read_message, read_record")
p("Alert and ChangeCipherSpec parsing",
  "A ChangeCipherSpec record is accepted iff its payload is exactly [1]; an alert record is accepted iff its payload is exactly two bytes naming a known level and description, and is delivered as that alert; everything else is UnexpectedMessage.",
  "all payloads", "all byte strings of all lengths", f"{T}: read_message", "src/alert.rs")
p("write is all-or-error",
  "TlsClient::write(buf) returns Ok(n) only with n = buf.len() and only after all the records carrying buf were handed completely to the transport; otherwise it returns an error.",
  "all buffers and all transport failure points", "failure may occur inside any of the five writes of any record", f"{C}: Write for TlsClient", f"{T}: write_record")
p("read delivers the stream exactly, for any buffer sizes",
  "Successive TlsClient::read calls with any buffer lengths return at most buf.len() bytes each and together return exactly the received application data in order, without loss, duplication or reordering; a short count is returned only after the stream failed or ended.",
  "all sequences of buffer sizes and record sizes", "interaction of buffer sizes with record boundaries is unbounded", f"{C}: Read for TlsClient::read")
p("Nothing is delivered after close_notify",
  "Once the peer's close_notify was received, read returns end-of-stream and never delivers later application data.",
  "all streams containing a close_notify", "depends on what follows the alert", f"{T}: read_application_data", f"{C}: Read for TlsClient::read")
p("A peer cannot crash an established connection",
  "After the handshake, read returns a value or an error for every alert, ChangeCipherSpec or handshake message the peer sends; it does not panic.",
  "all messages a peer may send after the handshake", "all 2-byte alerts and all handshake messages", f"{T}: read_application_data (unimplemented!)")
p("Read failures are reported as errors",
  "If a record fails authentication or the transport fails, TlsClient::read reports an error that the caller can distinguish from end-of-stream.",
  "all failing streams", "all failure kinds at all positions", f"{C}: Read for TlsClient::read (`Err(_err) => break`)")
# ---- handshake
p("No application data before the handshake completes",
  "A constructed TlsClient always has an encryptor and a decryptor installed (so write/read never hit the 'before handshake' panics), and no ApplicationData record is ever sent before the server's Finished was verified.",
  "all server behaviours, all transports", "ranges over all server byte streams", f"{C}: TlsClient::new, handshake", f"{T}: write_application_data, read_application_data")
p("A completed handshake implies a proper server flight",
  "If TlsClient::new succeeds then the server sent, in this order, ServerHello (version 3.3, suite 0xcca8, null compression), Certificate, ServerKeyExchange with a point that passes the curve check, ServerHelloDone, ChangeCipherSpec and, encrypted, Finished.",
  "all server byte streams and record fragmentations for which the handshake succeeds", "quantifies over all accepted streams", f"{C}: handshake")
p("Server Finished is verified",
  "If TlsClient::new succeeds then the verify_data received equals PRF(master_secret, 'server finished', SHA-256(transcript))[0..12], where master_secret and the transcript are the client's own; otherwise a mismatch gives DecryptError.",
  "all server byte streams", "all 12-byte values and transcripts", f"{C}: handshake", f"{U}: crypto_compare", "src/cipher/prf.rs")
p("Handshake completes with a correct server and both sides share keys",
  "Against any server that follows RFC 5246 (any randoms, session id, certificates, signature bytes, any P-256 key pair, any record fragmentation) the handshake succeeds and both sides hold the same master secret, record keys and IVs, so that application data then flows in both directions.",
  "all randoms, certificates, keys and fragmentations of a conforming server", "needs the group law and hash/PRF agreement for all values", f"{C}: handshake", "src/cipher/ecdhe.rs: compute_keys")
p("The server is authenticated",
  "A handshake succeeds only if the server proved possession of the private key of a certificate valid for the peer: certificate chain and ServerKeyExchange signature are verified.",
  "all certificate lists and signatures", "must reject every forged certificate/signature", f"{C}: handshake (TODO: cert validation)", "src/cipher/ecdhe.rs: signed_params")
p("What the client sends",
  "The first record is the ClientHello with version 3.3, the fresh 32-byte random, empty session id, the single suite 0xcca8, null compression and exactly the three extensions; in a successful handshake the wire carries exactly ClientHello, ClientKeyExchange, ChangeCipherSpec and an encrypted Finished with PRF(master,'client finished',hash), in this order.",
  "all randoms and all server behaviours", "exact bytes for every random value", f"{C}: handshake", f"{H}: new_client_hello")
p("Failure sends exactly the matching fatal alert",
  "If the handshake fails with an error other than IoFailure, the client sends exactly one fatal alert whose description corresponds to the error kind; with IoFailure it sends nothing more. The error returned is the handshake error unless sending the alert failed.",
  "all failing server behaviours", "all failure points", f"{C}: new, send_tls_alert", "src/alert.rs: from_tls_err")
p("Handshake messages do not span the key change",
  "Every byte of the Finished message the client accepts arrived in a record protected by the negotiated keys.",
  "all server byte streams", "needs a fragment placed just before ChangeCipherSpec", f"{T}: read_message (TODO), read_change_cipher_spec, set_decryptor", f"{H}: HandshakeBuffer")
# ---- symmetric crypto
p("ChaCha20 is RFC 8439 ChaCha20",
  "For every 32-byte key, 12-byte nonce and data, encrypt (after k block calls) equals the XOR of the data with the RFC 8439 keystream from block counter k; output length equals input length and encrypting twice with the same position restores the data.",
  "all keys, nonces, data lengths", "unbounded data; key space 2^256", "src/crypto/chacha20.rs")
p("The block counter never overflows on records",
  "Encrypting or decrypting any record-sized fragment never overflows the 32-bit block counter (which would panic in debug builds or repeat keystream in release builds).",
  "all fragments up to 2^38 - 128 bytes", "boundary is at 256 GiB", "src/crypto/chacha20.rs: next, encrypt")
p("Poly1305 computes the Poly1305 function",
  "authenticate(msg, r, s) = ((sum of blocks (with high bit) * powers of clamp(r)) mod 2^130-5 + s) mod 2^128, little endian, for every message and key, and no intermediate u32/u64 operation overflows.",
  "all messages of all lengths, all r and s", "limb carry bugs appear for ~2^-64 fractions of inputs", "src/crypto/poly1305.rs")
p("AEAD round-trip",
  "decrypt(nonce, encrypt(nonce, plain, ad), ad) = Ok(plain) for every key, nonce, plaintext and additional data; the ciphertext is exactly 16 bytes longer than the plaintext.",
  "all keys, nonces, plaintexts, additional data", "unbounded lengths", "src/cipher/chacha20_poly1305.rs")
p("AEAD accepts only the right tag",
  "decrypt returns Ok exactly when the last 16 bytes equal the Poly1305 tag of (ad, ciphertext) under the nonce's one-time key; otherwise, and for inputs shorter than 16 bytes, it returns BadRecordMac and no plaintext. In particular changing only tag bytes always fails.",
  "all inputs", "all 2^128 tags", "src/cipher/chacha20_poly1305.rs: decrypt")
p("The AEAD construction is RFC 8439 AEAD and its MAC input is unambiguous",
  "encrypt equals the RFC 8439 section 2.8 construction, and distinct (ad, ciphertext) pairs give distinct MAC inputs.",
  "all pairs of additional data and ciphertext", "injectivity is a statement about all pairs", "src/cipher/chacha20_poly1305.rs: compute_mac")
p("SHA-256 is FIPS 180-4 SHA-256",
  "sha256(msg) equals the FIPS 180-4 definition for every message shorter than 2^61 bytes.",
  "all messages of all lengths", "padding cases depend on length mod 64; the repo tests three messages", "src/crypto/sha2.rs")
p("HMAC-SHA256 is RFC 2104",
  "hmac_sha256 equals RFC 2104 HMAC for every key and message; keys longer than 64 bytes are hashed first.",
  "all keys and messages", "all key lengths including > 64", "src/cipher/prf.rs: hmac_sha256")
p("PRF output is a stream independent of request sizes",
  "For any sequence of get_bytes sizes, the concatenation of the results is the prefix of the RFC 5246 P_SHA256(secret, seed) stream, each result having the requested length.",
  "all sequences of request sizes", "tests try three splittings of 100 bytes", "src/cipher/prf.rs: Prf::get_bytes")
p("Constant-time compare is equality",
  "crypto_compare(a,b) is true iff a = b, for all slices of equal length.",
  "all pairs of equal-length byte strings", "all pairs", f"{U}: crypto_compare")
# ---- P-256
p("Field arithmetic is arithmetic modulo p",
  "For all field elements below p, add, sub, mult, square, double and divide_by_2 return the canonical representative of the mathematical result and never violate a debug assertion; mult is correct for all 256-bit inputs.",
  "all pairs of field elements (2^512)", "carry/borrow/reduction corner cases are hit with negligible probability by samples", f"{P2}: int256")
p("Field inversion",
  "inverse(a) * a = 1 for every non-zero field element, and inverse(0) = 0.",
  "all field elements", "tests use eight values", f"{P2}: Int256::inverse")
p("compare and choose",
  "compare returns 0 iff the operands are equal and 1 otherwise; choose returns its first argument for flag 0 and its second for flag 1.",
  "all 256-bit values", "all pairs", f"{P2}: Int256::compare, choose, Point256::choose")
p("Byte encoding of field elements",
  "from_bytes(to_bytes(a)) = a, to_bytes is 32-byte big endian, from_bytes accepts exactly the 32-byte strings and to_bytes(from_bytes(b)) = b.",
  "all 256-bit values / all byte strings", "all values", f"{P2}: to_bytes, from_bytes")
p("Point decoding accepts exactly the curve",
  "from_uncompressed_bytes accepts a byte string iff it is 0x04 || X || Y with X,Y < p and (X,Y) on P-256, never panics, and to_uncompressed_bytes is its inverse.",
  "all byte strings", "an attacker chooses the coordinates; violations sit in a 2^-32 window of x values", f"{P2}: NPoint256::from_uncompressed_bytes")
p("Point addition and doubling are the group law",
  "For all (Jacobian) points on the curve, including infinity, equal and opposite points, add and double represent the sum in the elliptic-curve group, and normalize returns its affine coordinates.",
  "all pairs of curve points in all projective representations", "special cases (equal, opposite, infinity) need algebra, not samples", f"{P2}: Point256::double, add, normalize")
p("Scalar multiplication",
  "mult_scalar(n) returns n times the point for every 256-bit n.",
  "all scalars and points", "the repo has no test of mult_scalar at all", f"{P2}: Point256::mult_scalar")
p("Different secret scalars give different public keys",
  "Distinct secret scalars in [1, order) give distinct ECDHE public keys (i.e. the key exchange has the full 256-bit key space).",
  "all pairs of scalars", "key-space size is invisible to tests", f"{P2}: mult_scalar", "src/cipher/ecdhe.rs: get_random_x")
p("ECDH agreement",
  "If the server's public point is y*G, the pre-master secret the client computes is the x-coordinate of y times the public point the client sends.",
  "all client and server secrets", "needs the group law", "src/cipher/ecdhe.rs: compute_keys")
p("The client's public key is always a valid curve point",
  "For every random draw the ClientKeyExchange carries 65 bytes 04||X||Y with (X,Y) on the curve.",
  "all secret scalars", "fails only for rare scalars", "src/cipher/ecdhe.rs: compute_keys", f"{P2}: normalize")
p("Key exchange never panics on server input",
  "compute_keys returns Ok or Err for every byte string the server may send as ServerKeyExchange, in every build mode.",
  "all byte strings", "the panic needs an x-coordinate in a window of relative size 2^-33", "src/cipher/ecdhe.rs: compute_keys", f"{P2}: reduce_once debug_assert")
p("Random scalar selection",
  "The secret scalar is the first 256-bit candidate drawn that is below p, so it is always a reduced value, and candidates at or above p are skipped.",
  "all random sources", "the skip happens with probability 2^-32", "src/cipher/ecdhe.rs: get_random_x")
p("Integer/byte conversions",
  "u64_be_array/u64_le_array/u32_be_array/u32_le_array give the big/little endian digits of their argument and are inverted by the corresponding ReadExt reads; write_be_u16 then read_be_u16 is the identity.",
  "all integers of the type", "all 2^64 values", f"{U}: u64_be_array, u64_le_array, u32_be_array, u32_le_array, read_be_u16, write_be_u16")
with open("/verif/properties.jsonl","w") as f:
    for x in P: f.write(json.dumps(x)+"\n")
print(len(P))
