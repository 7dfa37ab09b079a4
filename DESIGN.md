# Formal model of zkonge/husk in Lean 4

Source: `/repo` (rust, crate `husk`, a TLS 1.2 client: one cipher suite, one curve, own crypto).
Lean project: `/verif/lean` (`lake build`). Property list: `properties.jsonl`. Status: `MANIFEST.json`.

## Layout

| directory | content |
|---|---|
| `Verif/Base` | outcome type `Res` (ok / err kind / panic / diverge), build mode (debug / release), byte/integer conversion lemmas |
| `Verif/Model` | the model, function by function, each definition citing file and lines of `/repo` |
| `Verif/Spec` | small specifications written from the standards (FIPS 180-4, RFC 2104, RFC 5246, RFC 8439, number theory for Poly1305, Mathlib's Weierstrass curve for P-256, wire layouts), never mentioning model helpers |
| `Verif/Proofs` | helper lemmas |
| `Verif/Props` | the property theorems, named `Cxx_...`, with non-vacuity examples beside them |
| `tools` | `update.py` regenerates `Verif.lean` and `MANIFEST.json`; `mutlog.py` writes `seeded/LOG.jsonl` |
| `Verif/Tests` | the repository's own test vectors run on the model (these are tests of the model's fidelity, not proofs of properties) |

## Modelling decisions

* Rust `u8/u32/u64` are Lean `UInt8/UInt32/UInt64`; `Vec<u8>`/slices are `List UInt8`.
* `Wrapping<..>` arithmetic and `wrapping_add` are the (wrapping) operations on `UIntN`. Plain `+ - *` on
  machine integers is *checked*: on overflow it panics in debug builds and wraps in release builds. The model
  has a `Mode` parameter (debug/release), theorems quantify over it. `debug_assert!` panics in debug mode only.
* `Result` is `Res`: `ok a | err kind | panic | diverge`. The error description string is dropped (never inspected by code), except in `Model/Describe` (C118), which has the texts made in `read_message`, `read_handshake`, `read_change_cipher_spec` and `handshake`;
  `diverge` stands for a Rust loop that would not end for the given (finite) environment script; theorems show where it cannot happen.
* Mutation through `&mut self` is state passing. State after an error is kept (the Rust object survives an `Err`).
* `R: Read` is a finite script of events (a chunk of bytes / an error); a `read` call returns at most the buffer size from the
  first chunk; an exhausted script is EOF. Every finite behaviour of a real reader is such a script.
* `W: Write` is the list of bytes that reached the transport plus a script saying which `write_all` calls fail and after how many bytes. `Model/Sock` goes down to
  single `Write::write` calls (short writes, `Ok(0)`, `Interrupted`, errors) with std's loop for `write_all`; C111 shows that the coarser transport loses nothing.
* `OsRng` is a script of draws. `TcpStream`, `io::Error` payloads, `fmt`/`Error` impls, allocation failure, timing beyond the observations of `Base/Trace` (below),
  memory zeroing and stack/heap limits are not modelled.
* `mem::transmute` of integers to bytes is modelled for a little-endian host; `to_be`/`to_le` are applied as in the source.

## What is modelled

Every function of `/repo/src` outside `#[cfg(test)]`, except those listed below.

| source | model | remarks |
|---|---|---|
| `util.rs` | `Model/Util`, `Model/Transport` | integer/byte conversion, `crypto_compare`, `ReadExt`, `WriteExt` |
| `crypto/chacha20.rs`, `poly1305.rs`, `sha2.rs` | `Model/ChaCha20`, `Poly1305`, `Sha2` | `Simd4` is a list of four words; limbs and carries as in the code |
| `crypto/p256.rs` | `Model/P256` | limbs and carries of `Int256`; loops with early exit as recursion |
| `crypto/wrapping.rs` | inlined | `to_wN` is truncation |
| `cipher/prf.rs`, `chacha20_poly1305.rs`, `mod.rs`, `ecdhe.rs` | `Model/Prf`, `AeadChaCha`, `CipherSuite`, `Ecdhe` | the traits `Aead`, `Encryptor`, `Decryptor`, `KeyExchange` have one implementation in the crate; record layer theorems are stated for any `Encryptor`/`Decryptor` where possible |
| `tls_item.rs`, `macros.rs` | `Model/TlsItem` | one instance or combinator per macro; on byte strings in memory, which is all the client itself uses; on a general `Read` and `Write`, call by call, in `Model/StreamItem` (`read_to_end` retries `Interrupted`, as std does; the chunk sizes std asks for do not matter) |
| `alert.rs`, `signature.rs`, `handshake.rs` | `Model/Alert`, `Signature`, `Handshake` | all types and constructors, `HandshakeBuffer` |
| `tls.rs` | `Model/Tls` | `TlsWriter`, `TlsReader`; `TlsWriter` has a ghost field `calls` (log of encryptor calls) that no code path reads |
| `client.rs` | `Model/Client` (and `Model/Sock`, `Model/Tcp`) | `new`, `handshake`, `close`, `send_tls_alert`, `Read`, `Write`, `from_tcp`, the accessors `reader()`, `writer()` (`get_mut` also in `Props/KeysOnce`): any function on the transport; std's defaults `read_exact`, `read_to_end` in `Props/ReadMethods` |
| `examples/cloudflare.rs` | `Props/Example` | `main` from the connected stream on |

Not modelled: `fmt`/`Error` implementations and the description strings of `TlsError` other than those of `Model/Describe` (C118),
`SurugaError`, `Clone` implementations (identity), memory zeroing, allocation. `Write::flush` of the transport is never called by the code.

Simplifications, each said again at the definition:

* `handshake` is split into `sendHello`, `readFlight`, `sendFinished`, `readFinished`, run one after the other; in Rust it is one function.
* loops over a transport take fuel computed from the length of the script; `fillLoop_spec`, `readLoop_spec`, `getLoop_spec`, `readItems_returns`, C61_no_hang and the like show that it suffices.
* a transport that blocks forever is not distinguished from one that ends; a theorem about all scripts includes every finite prefix of such a transport.

## Method per property

| properties | where | how |
|---|---|---|
| C01-C08 serialisation | `Props/Codec`, `HelloRejected` | laws per combinator (`LawfulItem`, `LawfulTail`), instantiated for every type; layouts from RFC 5246 in `Spec/Codec` |
| C09, C10 `HandshakeBuffer` | `Props/HandshakeBuffer` | refinement to a flat byte queue, induction over histories |
| C11-C20 record layer | `Props/Record`, `RecordSecurity` | flat-stream refinement, induction over chunks, ghost log, ideal AEAD for C17 |
| C21-C25 client I/O | `Props/ClientIo` | refinement of `read`/`write` to the record layer |
| C26-C33 handshake | `Props/ClientHandshake`, `ServerFlight`, `HandshakeSuccess`, `HandshakeGaps`, `FlightUnique` | inversion of a successful run, forward run against a specified server |
| C34-C43 symmetric crypto | `Props/ChaCha20`, `Poly1305`, `Aead`, `Sha256`, `Prf`, `Util` | refinement to specifications written from the RFCs |
| C44-C51 P-256 | `Props/P256` | limbs to `ZMod p` (p prime by Pratt certificates), points to Mathlib's `WeierstrassCurve.Affine.Point`, induction over scalar bits |
| C52-C58 key exchange, codec helpers | `Props/Ecdhe`, `Util` | |
| C59-C65 refusals during the handshake | `Props/HelloRejected`, `NoPanic`, `HandshakeOrder`, `InvalidKey` | forward runs up to the fault, for all fragmentations and continuations |
| C66-C69, C71 whole sessions | `Props/SessionData`, `KeystreamReuse`, `Forgery`, `Chunking` | histories of `read/write/flush/close` after any successful handshake |
| C70, C72 what a completed handshake establishes | `Props/Transcript`, `KeySpace` | injectivity of the encodings of the flight; keys as a function of a 56 bit number and public values |
| C73, C74 buffering | `Props/Buffering`, `Promptness` | Hoare logic `Post` with an invariant on the two buffers; forward runs of `read` |
| C75 version bytes | `Props/RecordVersion` | relational Hoare logic `Pair` over two streams that differ in version bytes |
| C77 forgery bound | `Props/MacForgery`, `Proofs/PolyHash`, `Proofs/Poly1305Prime` | Mathlib polynomials over `ZMod (2^130 - 5)`: injectivity of message to polynomial, number of roots, size of the fibres of clamping |
| C78, C79 what the wire shows | `Props/Secrecy`, `Spec/Blocks`, `Proofs/Blocks` | record protection with the block function as a parameter, equal to the real one for the blocks of ChaCha20; a bijection between choices of the blocks |
| C80 forgery with random blocks | `Props/RandomPad` | counting over choices of the blocks: one-time keys are a coordinate of the choice that nothing else depends on; C77 for one record; union over places and numbers |
| C81-C83 after a refused record, after `close`, empty records | `Props/AfterFailure` | iteration of the runs of C22, C25 and C67 |
| C84-C88 what timing and caches show | `Props/ConstantTime` | every function that handles secrets is written a second time with its observations (`Model/TraceP256`, `TraceSym`, `TraceEcdhe`); erasure to the model (`Proofs/TraceP256`, `TraceSym`, `TraceEcdhe`), then a relational argument on two executions (`Proofs/TraceP256Same`, `TraceSymSame`); the leak of debug builds by following two scalars to the step where the observations part (`Proofs/TraceLeak`) |
| C89 wire format | `Props/Wire` | `Spec/Wire` writes every structure out field by field from the RFCs, with its own code points, prefixes and bounds, using nothing of the model but its types; `write` equals it by composing one lemma per macro, reading by C01 and C03, bounds by turning `new` into conditions on lengths |
| C90, C91 items on transports | `Props/Streaming`, `Proofs/StreamItem` | simulation: for each macro and structure, reading from a transport steps as reading from memory (result, what is left), writing sends what is written in memory or a prefix; composed along the structure, vectors by induction on the loop |
| C92 truncation | `Props/Truncation` | induction over the calls: the results as a function of the data pending, whatever part of a record follows; position of a cut by induction over the records |
| C93 handshake data | `Props/HandshakeCost` | Hoare logic with a potential: what a step takes from the transport is paid for by what it adds to the buffer, plus a constant per message |
| C94 end of the record numbers | `Props/Wrap` | induction over the calls with the counter modulo 2^64; injectivity of the nonce below |
| C95 `read_exact`, `read_to_end` | `Props/ReadMethods`, `Example` | std's loops around `read` as a recursion and an inductive relation; all follow from what sequences of `read` hand out |
| C96, C97 sessions and the example program | `Props/Example` | forward run of the handshake, then induction over the calls with the invariant that reads serve the rest of the data; also C92 for sessions |
| C98 key stream over histories of calls | `Props/Keystream` | induction over calls and chunks with the counter modulo 2^32; debug: the call that reaches 2^32 blocks panics |
| C99 record layer as a channel | `Props/Channel` | invariant that both ends are in step between two calls; each call and its receipt (`carries`); induction over the history |
| C100 buffering transports | `Props/Flush` | a model of `BufWriter`; what fits the buffer stays in it; lengths of the wire from C79 |
| C101 extensions of the ServerHello | `Props/HelloExtensions` | the handshake model as it is; `Completed` (C27) says that the extension part is a block of RFC 5246 and that no certificate is empty; negative: instances of the completion theorem C29; positive: inversion of the run, then the codec theorems (C89) |
| C102 exactly which server streams are accepted | `Props/Acceptance`, `Proofs/Accept` | equivalence: one direction is C27, whose `Completed` was extended until nothing was missing (no empty record, record numbers, last record needed); the other runs the reader forward over any sequence of records (`Took.readFramed`, `Took.readChange`) |
| C103 what the error of a failed handshake says | `Props/Diagnosis`, `Proofs/Trouble`, `Proofs/DecodeKinds` | inversion of every failing run: the decoders yield only `IoFailure` and `DecodeError` (`DecodesTo`), a record or a message that is not delivered has one of the reasons of `BadRecord`/`BadMessage`, and each step of the handshake that fails has one of the causes of `Cause`; from this one theorem per error kind |
| C104 what timing shows of the calls of an established connection | `Props/ApiConstantTime` | the record layer and `read`, `write`, `close` written a second time with their observations (`Model/TraceTls`, over the stateful traced monad of `Base/TraceSt`); erasure to the model (`Proofs/TraceTls`, `C104_same_result`), a relation between two connections that agree on the public part (`TlsClient.Twin`) kept by every call (`Proofs/TraceTlsSame`), induction over histories; `C104_established` shows that two completed handshakes are related so |
| C105 what timing shows of the handshake's secrets | `Props/FlightConstantTime` | master secret, key expansion, Finished values, second flight and the check of the server's Finished written a second time with their observations (`Model/TraceClient`); erasure (`C105_same_result`), two executions by the `_same` lemmas of C86/C87 and the writer's part of C104 (`Proofs/TraceClient`) |
| C106 the record layer takes keys once | `Props/KeysOnce` | histories of all calls of `TlsWriter`, `TlsReader` (`WriterCall`, `ReaderCall`), going on after errors and panics, with the transport exchanged through `get_mut`; every call other than `set_*` leaves the keys alone (`Untouched`, a frame lemma per function); induction on the history |
| C107 what the server sends decides how `new` ends | `Props/Outcome` | `Comes` is the next message of a stream as an inductive relation, `Ends` the outcome of the handshake as one over `Comes`; both are shown sound (the program does what the relation says, by induction on the relation, up to chunking) and total (strong induction on the bytes to come; case distinction per step), which gives the equivalence and uniqueness |
| C108 what `read` returns | `Props/Reads` | relations `Arrives` (data, then an error or a crash) and `HandsOut` (lengths to results) on top of `Comes`; induction on the fuel of the loop with "what is there" (buffer, then what arrives) as the invariant; existence by induction on the bytes left, uniqueness by `Comes.unique` |
| C109 what all calls return and send | `Props/Behaviour` | relation `Behaves` over `Arrives` and the faults of the writer; each call keeps "what is there to read, the number of the next record, the faults to come"; induction on the relation for soundness, on the calls for existence, and both together give the equivalence |
| C110 a whole program over any transport | `Props/Whole` | relation `Plays` over C107's `Comes`, C108's `Arrives`, C109's `Behaves` and the faults of the writer; each buffer list is shown to be what the code passes to `write_all`; soundness by cases on the relation, existence by cases on the code's first deviation, and both together give the equivalence |
| C111 single calls of `write` | `Props/WriteCalls` | simulation: from any state, the call over the fine transport and the call over the coarse one that is told what becomes of the buffers end alike; closed under bind, fields and loops, so it follows the structure of the client; slow transports by giving both runs the same fault list |
| C112 what timing shows of a whole handshake and session | `Props/HandshakeConstantTime` | the handshake written a second time with its observations (`Model/TraceHandshake`), erasure for all outcomes (`C112_same_result`); two successful runs taken apart into their steps (`Proofs/SuccessSteps`), the clear part by a frame property of reading (what is observed depends on the bytes taken, `Proofs/TraceFrame`), Finished by its record lengths (`Proofs/TraceFinished`), the rest by C88 and C105 (`Proofs/TraceSuccess`); session by C104. Debug builds: refuted for every server (`C112_only_release`) |
| C113 no public call sends anything unprotected or lets in anything unauthenticated | `Props/PublicApi` | a predicate on writer programs (what is added to the wire is pieces of sealed records, numbered on from the counter) closed under bind and met by `write_record` for any record; every public call is composed of it; for reading the relation `Accepts` for every call on the reader, and induction over the history |
| C114 what timing shows of a handshake that fails | `Props/FailureConstantTime` | `TlsClient::new` with the alert, written with its observations (`Model/TraceNew`), erasure for all outcomes (`Proofs/TraceFail`); two runs on the same bytes part by part: readers that differ in the IV only (`Beside`), readers with different keys that wait for their first protected record (`Awaiting`: it is refused by both with the same observations, or one has accepted it), the key exchange by C55 and C88, the second flight by C105, the alert by C104's lemmas on writers |
| C115 transports handed out | `Props/HandedOut` | induction over histories of calls and uses of the transports, comparing the states before and after each call; per call the lemmas of C113 |
| C116 one try per record | `Props/OneTry` | the reader's walk through the stream as a function of the bytes alone, followed record by record through any history of calls; union over the tries of the bound for one record (C80) |
| C117 Reading costs work in proportion to the data | `Model/ReadCost`, `Props/ReadCost` | `read` with a counter of bytes moved, proved to be `read` when the counter is dropped; bound per call by induction over the loop (potential: bytes left in the buffer); exact cost of one-byte reads by induction over the records; counterexample with one full record |
| C118 The error tells which alert has come | `Model/Describe`, `Props/Described` | the handshake with the texts of its errors, proved to be the handshake when the texts are dropped; alerts that come described on the byte stream (`AlertComes`, over records and half messages); one lemma per place where the client waits; converse through the outcome relation of C107; counterexample: conforming first flight followed by an alert |
| C119 A failed write has delivered nothing | `Props/FailedWrite` | the bytes of a failed call as whole records and part of one (`sendItems_fails`, induction on the chunks and the script of faults); what a peer with the same key gets of them, by induction on the records (`arrives_records`) and uniqueness of `Arrives`; the call made again computed for every buffer (`C119_twice`) |
| C120 Records that `write_record` takes arrive | `Props/RecordLimits` | a table of what happens by length and presence of a key (`passage`), proved for each record and each matching reader from C37 and the front half of `read_record`; the English claim fails in three of its rows |
| C121 Warnings and HelloRequests do not end the handshake | `Props/Interjections` | the conforming server's stream with one record put in after any of its messages (`Interrupted`); the end of the handshake at each position from C62 and C63; the same stream without the record from C29 |
| C122 The handshake does not stand still waiting on both sides | `Props/NoDeadlock` | a server as a function from what it has received to what the client can read (`Answers`), and the conversation of the two, turn by turn (`talk`); what the client has sent when only the server's first flight has come, from the run up to its Finished (`handshake_upto_finished`) |
| C123 What has not come yet does not matter | `Props/Causal` | two runs on readers of which one has more to give (`Later`): each call does the same on both, or has stopped for want of bytes and sent no more than the other (`Ahead`), closed under sequence because the calls only add to the wire (`Grows`); the loops by induction on their fuel, which differs in the two runs; when what comes next is an error of the transport, the other stops with the same error |
| C124 A connection that ends during the handshake is reported as such | `Props/CutHandshake` | the stream of C29 cut at any place (`p ++ q = serverWire`, `q ≠ []`) and ended (`Ended`); if `new` did not stop for want of bytes, by C123 the rest `q` would be unread after the whole stream, but C29 leaves nothing unread; no hang by C61; with an error instead of end of file from the last part of `Ahead` |
| C125 Errors on the writing side during the handshake stop it and nothing else | `Props/WriteErrors` | two runs of which the second has a transport that takes everything (`Unhindered`), related call by call as in C123 (`Ahead`): the same, or the first has stopped with an I/O error and has sent no more; short writes through the refinement of C111 (`alike_new`) |
| C76 debug and release | `Props/Modes`, `Proofs/Modes`, `Proofs/Pair` | relational Hoare logic: every function in debug mode panics or does what it does in release mode |

Statements mention the model only through the API (`TlsClient.new`, `read`, `write`, ...), the transport scripts and `Spec`.

## Findings: where the code violates a property

Each is a theorem about the model with a witness (often: for all keys, records, positions); the part that holds is a `_partial` theorem.

| property | violation |
|---|---|
| C29, C50, C51, C53 | `Point256::mult_scalar` loops `i` over `0..7` and `j` over `0..8`: it multiplies by 56 of the 256 bits of the scalar. ECDHE secrets have 56 bits; there are exactly 2^56 client keys, and the session keys are among 2^56 candidates computable from public values (C72); scalars with these bits zero give the point at infinity, sent as `04 00...00` (C29) |
| C48, C54, C64 | coordinates that are not reduced mod p are accepted; in release builds also some points off the curve; debug builds panic on some of them (exactly those with 3x ≥ 2^256 + 2p) |
| C57, C58 | the named curve of ServerKeyExchange and bytes after its parameters are ignored |
| C30 | certificate and signature are never looked at |
| C33, C27 | up to 15 of the 16 bytes of the server's Finished may be sent in clear before ChangeCipherSpec |
| C15, C68 | after a failed write the record number is not advanced: the next write reuses key, nonce and keystream |
| C12 | a transport read that fails inside a record, also with `ErrorKind::Interrupted`, loses the bytes of the record read so far |
| C18, C19, C61 | a protected record that opens to more than 2^14 bytes makes the reader panic |
| C20 | alerts with trailing bytes are accepted |
| C23, C24, C25 | `read` goes on after close_notify, panics on any other alert, on ChangeCipherSpec and on handshake messages, and never returns an error (a forged record looks like the end of the stream) |
| C63 | an alert in place of ChangeCipherSpec is reported as UnexpectedMessage |
| C01, C03, C04, C06, C70 | bytes after the extension block of a hello are dropped (so the transcript is not what was received, and such bytes can be inserted in transit unnoticed); `Extension::Unknown` can shadow a known type; lengths truncated by `as u16`/`as u24` |
| C74 | `read` does not return before its buffer is full or the transport fails or ends: it asks for more although it has data to return |
| C75 | the version bytes of received records are not looked at; before protection starts they can be changed freely in transit |
| C91 | a hello naming `UnknownCipherSuite` (as decoded from a peer) is refused by `tls_write` only after its first fields have been sent |
| C92 | the end of the transport without close_notify looks to the application like a proper end: a stream can be cut after any record unnoticed |
| C94 | the record counter wraps in release builds: after 2^64 records numbers, keys and nonces are used again |
| C95 | `read_to_end` does not end at close_notify, only when the transport ends; what follows close_notify is delivered |
| C98 | the comment of `ChaCha20::encrypt` allows 2^70 bytes, the key stream repeats after 2^38 bytes in release builds |
| C100 | `flush` does not reach the transport and the handshake never flushes: over a buffering transport nothing is delivered, not even the ClientHello |
| C101 | The FIXME at `src/client.rs:118` says that unknown extensions are refused "by just not understanding" them; the decoder keeps them as `Unknown`, so any unsolicited or repeated extension is accepted, and so is a list of point formats without `uncompressed`. |
| C103 | A handshake message that is too short (a ServerHello body of at most 34 bytes) makes the decoder run out of bytes, which is reported as `IoFailure`, as if the transport had failed; since `send_tls_alert` (`src/client.rs:259-262`) sends nothing for `IoFailure`, the server gets no `decode_error`. A message with bytes after its end is reported as `InternalError` (`src/handshake.rs:249`), alert 80. |
| C117 | `read` copies all that is left of a record at the end of every call (`self.buf[necessary..].to_vec()`): taking a record of n bytes byte by byte moves n + n(n+1)/2 bytes, for a full record 134 MB (`C117_one_byte_reads`, `C117_false`). |
| C118 | `read_change_cipher_spec` drops the alert it is given: each alert that the library knows ends the handshake there with UnexpectedMessage, "expected ChangeCipherSpec, get alert", whichever it is (`C118_change_lost`, `C118_false`). This is where a server says that it does not accept the client's key exchange or Finished. |
| C119 | `write` splits its buffer into records of 16384 bytes and hands them on one by one. If the transport fails after the first, `write` returns an error although the peer gets the first record; the writer stays usable, so a program that makes the call again, as `Write` allows, sends those 16384 bytes twice, and the peer cannot tell (`C119_twice`, `C119_false`). |
| C120 | `Record` has public fields and `write_record` compares only the encrypted length with 2^14+2048. So a record of 2^14+1 to 2^14+2032 bytes handed to it under a key goes out, though RFC 5246 allows 2^14, and makes a reader of this library panic; a longer one makes `write_record` itself panic instead of returning an error (`C120_passage`, `C120_false`). |
| C121 | A HelloRequest or an alert of level warning between the server's messages, which RFC 5246 lets a server send and has the client ignore or go on after, always ends the handshake, at every position (`C121_disturbs`). (The client sends no server name, so that it has no reason to expect the warning unrecognized_name, the one most often met.) |
| C85, C88, C112 | in debug builds the assertions of `reduce_once` and `sub` (`!(a == 0 && b == 1)`) branch on secret data: the scalars 1 and 2 are told apart |
| C81, C82, C83 | a record that does not open does not end the connection (attempts at forging are not limited, no alert is sent); `write` after `close` succeeds; a single `read` takes any number of empty records |
| C41 | HMAC keys longer than 64 bytes panic |

Also noted while reading, without being violations of a listed property: `close` sends close_notify with level fatal and does not stop later writes; `get_random_x`
compares with p instead of n and allows 0; an empty `write` sends nothing.

## What is observed of an execution (C84-C88, C104, C105, C112, C114)

`Base/Trace`: an execution leaves a list of observations: the outcome of every `if`, loop test and assertion, the position of every array access that is not a literal, and
the length of every buffer that is made, copied or appended. Two executions are indistinguishable if the lists are equal. This is the usual definition of
constant-time programs at source level. Not covered: what the compiler makes of the source, the cost of single machine operations (multiplications), the
overflow checks of debug builds (they never fail on these paths, C35, C36 and the theorems on P-256 in both modes), allocation, and code that handles public data only (parsing the server's message
and the check of its point are not recorded). For C104 the calls on the transport are observed too: the length of every buffer handed over, how much was moved, failures; what goes
over the wire in clear (the record headers) is public anyway, and a server's handshake message or alert in the stream is outside the comparison (the records are application data). For C112 reading the server's handshake messages is observed down to the records, the buffer and the kinds of the messages; parsing their bodies and serialising the client's messages are not (beyond lengths); the alert of a handshake that fails is observed in C114. The traced functions have the same results as the model's
(the theorems `…_same_result` and `Proofs/Trace*`), so they cannot drift from it in what they compute; that they record all observations is by reading them against the source.

## Testing the theorems

`seeded/LOG.jsonl` has one line per seeded edit of a model definition (made in a copy outside this directory): the edit, the claim it makes false, the
declarations that stop compiling (`failed`) and the theorems of the claim that rest on them. When an edit made a claim false in English but only an auxiliary lemma
noticed, theorems were added; these are named under `tightened`.

## Trusted base

Lean's kernel; axioms `propext`, `Classical.choice`, `Quot.sound` only (no theorem uses any other; no `sorry`, `native_decide`, `bv_decide`);
the reading of the Rust code (nothing was run); the modelling decisions above; std/num/rand behave as documented; Mathlib's definition of Weierstrass curves and
the specifications in `Verif/Spec`.
