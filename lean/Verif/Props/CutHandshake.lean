import Verif.Props.Causal
import Verif.Props.NoPanic
import Verif.Props.Forgery
/-! C124: a connection that ends during the handshake. -/

namespace Husk

open Item Spec TlsReader TlsClient

/-! ### Proofs: the server's stream is not so long -/

theorem flight_short {V : ServerValues} (hV : V.Conforms) {random : Bytes} {P : Spec.P256.curve.Point} {S : Session} (hS : S = V.session random P) : S.flight.length < 2 ^ 26 := by
  obtain ⟨f, _, _, _, _, _, _, b1, b2, b3, _⟩ := session_flight hV random _ S hS
  have hlen : ∀ {b : Bytes} {h : Handshake}, Framed b h → b.length < 2 ^ 24 + 4 := by
    rintro b h ⟨ty, body, hb, rfl, _⟩
    simp only [handshakeBytes, List.length_cons, List.length_append, beBytes_length]
    omega
  have l1 := hlen b1
  have l2 := hlen b2
  have l3 := hlen b3
  have l4 : (handshakeBytes 14 []).length = 4 := rfl
  rw [hS]
  show (serverHelloBytes V.random V.sessionId (extPart V.exts ++ []) ++ (certificateBytes V.certs ++ (handshakeBytes 12 V.keyExchange ++ handshakeBytes 14 []))).length < _
  rw [List.append_nil, List.length_append, List.length_append, List.length_append]
  omega

theorem Fits.count {fs : List Bytes} (h : Fits fs) : fs.length ≤ fs.flatten.length := by
  induction fs with
  | nil => exact Nat.le_refl _
  | cons f fs ih =>
    have h1 := ih fun g hg => h g (List.mem_cons_of_mem _ hg)
    have h2 := List.length_pos_iff.mpr (h f List.mem_cons_self).1
    rw [List.flatten_cons, List.length_append, List.length_cons]
    omega

theorem clearRecords_length (fs : List Bytes) : (fs.flatMap (recordBytes 22 3 3)).length = fs.flatten.length + 5 * fs.length := by
  induction fs with
  | nil => rfl
  | cons f fs ih =>
    rw [List.flatMap_cons, List.length_append, ih, List.flatten_cons, List.length_append, List.length_cons]
    simp only [recordBytes, List.length_cons, List.length_append, List.length_nil, beBytes_length]
    omega

theorem serverWire_length {rng random block rest : Bytes} (D : Draws rng random block rest) {V : ServerValues} (hV : V.Conforms) {S : Session} (hS : S = V.session random (clientPoint block))
    {fs1 fs2 : List Bytes} (h1 : Cuts fs1 S.flight) (h2 : Cuts fs2 (finishedBytes S.serverVerify)) : (serverWire S fs1 fs2).length < 2 ^ 32 := by
  have a1 := h1.1.count
  have a2 := h2.1.count
  have a3 := flight_short hV hS
  have a4 : (finishedBytes S.serverVerify).length = 16 := by simp [finishedBytes, handshakeBytes, serverVerify_length D hV hS]
  have a5 : (recordBytes 20 3 3 [1]).length = 6 := rfl
  rw [serverWire, List.length_append, List.length_append, clearRecords_length, protectedRecords_length, a5]
  rw [h1.2.2] at *
  rw [h2.2.2] at *
  omega

/-! ### C124 -/

/-- The end of a connection, seen from the side that reads: end of file, or an error of the transport (after which more may come). -/
inductive Ended : List Sym → Prop
  | eof : Ended []
  | failed (l : List Sym) : Ended (.stop :: l)

/-- C124: when the connection ends before the last byte of a conforming server's part of the handshake has come, wherever that is, `new` returns an I/O error; the
client has sent the beginning of what it sends in the handshake and nothing else: no alert. -/
theorem C124_cut (m : Mode) (rd : Reader) (wr : Writer) (rng : Rng) (hfa : wr.faults = []) (random block rest : Bytes) (D : Draws rng.bytes random block rest)
    (V : ServerValues) (hV : V.Conforms) (S : Session) (hS : S = V.session random (clientPoint block)) (fs1 fs2 : List Bytes) (h1 : Cuts fs1 S.flight)
    (h2 : Cuts fs2 (finishedBytes S.serverVerify)) (p q : Bytes) (hpq : p ++ q = serverWire S fs1 fs2) (hq : q ≠ []) (e : List Sym) (he : Ended e) (hrd : rd.stream = ofBytes p ++ e) :
    (TlsClient.new m rd wr rng).1 = .err .IoFailure ∧
    (TlsClient.new m rd wr rng).2.writer.writer.wire <+: wr.wire ++ (clientFlight random (Spec.P256.encode (clientPoint block)) S.keys S.clientVerify).flatten := by
  have hlen := serverWire_length D hV hS h1 h2
  have hp : p.length < 2 ^ 32 := by rw [← hpq, List.length_append] at hlen; omega
  -- everything
  obtain ⟨r1, hr1⟩ : ∃ r1 : Reader, r1.stream = ofBytes (serverWire S fs1 fs2) := ⟨byteByByte _, stream_byteByByte _⟩
  obtain ⟨c1, k1, k2, k3, -⟩ := C29_completes_partial m r1 wr rng hfa random block rest D V hV S hS fs1 fs2 [] ⟨h1, h2, by rw [hr1, List.append_nil]⟩
  -- what has come, and then end of file
  have key : ∀ r0 : Reader, r0.stream = ofBytes p → (TlsClient.new m r0 wr rng).1 = .err .IoFailure ∧
      (TlsClient.new m r0 wr rng).2.writer.writer.wire <+: wr.wire ++ (clientFlight random (Spec.P256.encode (clientPoint block)) S.keys S.clientVerify).flatten := by
    intro r0 hr0
    have hnd0 : (TlsClient.new m r0 wr rng).1 ≠ .diverge := C61_no_hang m r0 wr rng (by rw [hr0, countBytes_ofBytes]; omega) D
    have h01 : r1.stream = r0.stream ++ ofBytes q := by rw [hr1, hr0, ← ofBytes_append, hpq]
    have w0 := C123_sent m r0 r1 wr rng _ h01
    rw [k1] at w0
    dsimp only at w0
    rw [k3] at w0
    refine ⟨?_, w0⟩
    by_contra hne
    rcases e0 : TlsClient.new m r0 wr rng with ⟨x, c⟩
    rw [e0] at hne hnd0
    obtain ⟨d, g1, g2, -⟩ := C123_result m r0 r1 wr rng _ h01 x c e0 hne hnd0
    rw [k1] at g1
    cases g1
    rw [k2] at g2
    have := (List.append_eq_nil_iff.mp g2.symm).2
    exact hq (by simpa [ofBytes] using this)
  cases he with
  | eof => exact key rd (by rw [hrd, List.append_nil])
  | failed l =>
    obtain ⟨r0, hr0⟩ : ∃ r0 : Reader, r0.stream = ofBytes p := ⟨byteByByte p, stream_byteByByte p⟩
    obtain ⟨i0, w0⟩ := key r0 hr0
    rcases new_ahead m (by rw [hrd, hr0] : rd.stream = r0.stream ++ .stop :: l) wr rng with ⟨-, -, g⟩ | ⟨g1, g2⟩
    · obtain ⟨g1, g2⟩ := g ⟨l, rfl⟩ i0
      refine ⟨g1, ?_⟩
      have : (TlsClient.new m r0 wr rng).2.writer.writer.wire = (TlsClient.new m rd wr rng).2.writer.writer.wire := g2
      rw [← this]
      exact w0
    · rw [← g1]
      refine ⟨i0, ?_⟩
      have : (TlsClient.new m r0 wr rng).2.writer.writer.wire = (TlsClient.new m rd wr rng).2.writer.writer.wire := by rw [g2.2.1]
      rw [← this]
      exact w0

/-- C124: what the client has sent then: its ClientHello at least; all of its part of the handshake if the server's first flight has come. -/
theorem C124_sent (m : Mode) (rd : Reader) (wr : Writer) (rng : Rng) (hfa : wr.faults = []) (random block rest : Bytes) (D : Draws rng.bytes random block rest)
    (V : ServerValues) (hV : V.Conforms) (S : Session) (hS : S = V.session random (clientPoint block)) (fs1 fs2 : List Bytes) (h1 : Cuts fs1 S.flight)
    (h2 : Cuts fs2 (finishedBytes S.serverVerify)) (p q : Bytes) (hpq : p ++ q = serverWire S fs1 fs2) (hq : q ≠ []) (e : List Sym) (he : Ended e) (hrd : rd.stream = ofBytes p ++ e) :
    wr.wire ++ recordBytes 22 3 3 (clientHelloBytes random) <+: (TlsClient.new m rd wr rng).2.writer.writer.wire ∧
    (fs1.flatMap (recordBytes 22 3 3) <+: p → (TlsClient.new m rd wr rng).2.writer.writer.wire =
      wr.wire ++ (clientFlight random (Spec.P256.encode (clientPoint block)) S.keys S.clientVerify).flatten) := by
  obtain ⟨-, hw⟩ := C124_cut m rd wr rng hfa random block rest D V hV S hS fs1 fs2 h1 h2 p q hpq hq e he hrd
  obtain ⟨more, hm, -⟩ := hV.keys D m
  refine ⟨C122_hello m rd wr rng hfa hm D.randomLength, ?_⟩
  rintro ⟨p', rfl⟩
  have hf := C122_flight m rd wr rng hfa D hV hS h1 (ofBytes p' ++ e) (by rw [hrd, ofBytes_append, List.append_assoc])
  rw [show S.random = random by rw [hS]; rfl, show S.point = Spec.P256.encode (clientPoint block) by rw [hS]; rfl] at hf
  exact hw.eq_of_length_le hf.length_le

/-- C124, whatever the server sends and however `new` ends: everything it has taken from the transport was needed. On a stream of which the last thing it took is
missing it returns an I/O error, and has sent the beginning of what it sent. -/
theorem C124_needed (m : Mode) (rd rd' : Reader) (wr : Writer) (rng : Rng) {random block rest : Bytes} (D : Draws rng.bytes random block rest)
    (hn : countBytes rd.stream + 1 < 2 ^ 64) (q : List Sym) (h : rd'.stream = rd.stream ++ q) (x : Res Unit) (c : TlsClient) (hx : TlsClient.new m rd' wr rng = (x, c))
    (hq : c.reader.reader.stream.length < q.length) :
    (TlsClient.new m rd wr rng).1 = .err .IoFailure ∧ (TlsClient.new m rd wr rng).2.writer.writer.wire <+: c.writer.writer.wire := by
  have hw := C123_sent m rd rd' wr rng q h
  rw [hx] at hw
  refine ⟨?_, hw⟩
  by_contra hne
  have hnd := C61_no_hang m rd wr rng hn D
  rcases e0 : TlsClient.new m rd wr rng with ⟨y, c0⟩
  rw [e0] at hne hnd
  obtain ⟨d, g1, g2, -⟩ := C123_result m rd rd' wr rng q h y c0 e0 hne hnd
  rw [hx] at g1
  cases g1
  rw [g2, List.length_append] at hq
  omega

/-- C124, whatever the server sends: an error of the transport, whatever comes after it, and the end of file at the same place are the same to `new`: the same result, and
the same bytes sent. -/
theorem C124_eof_or_error (m : Mode) (rd rd' : Reader) (wr : Writer) (rng : Rng) {random block rest : Bytes} (D : Draws rng.bytes random block rest)
    (hn : countBytes rd.stream + 1 < 2 ^ 64) (l : List Sym) (h : rd'.stream = rd.stream ++ .stop :: l) :
    (TlsClient.new m rd' wr rng).1 = (TlsClient.new m rd wr rng).1 ∧
    (TlsClient.new m rd' wr rng).2.writer.writer.wire = (TlsClient.new m rd wr rng).2.writer.writer.wire := by
  rcases new_ahead m h wr rng with ⟨g1, -, g⟩ | ⟨g1, g2⟩
  · have e1 := g1.resolve_right (C61_no_hang m rd wr rng hn D)
    obtain ⟨g2, g3⟩ := g ⟨l, rfl⟩ e1
    exact ⟨g2.trans e1.symm, g3.symm⟩
  · exact ⟨g1.symm, by rw [g2.2.1]⟩

/-- The hypotheses are met at every place: a connection cut off after `k` bytes of a conforming server's stream, for any `k` less than its length. -/
example (random block : Bytes) (hr : random.length = 32) (hb : block.length = 32) (hlt : leNat block < P256.p) (V : ServerValues) (hV : V.Conforms) (S : Session)
    (hS : S = V.session random (clientPoint block)) : Draws (random ++ block) random block [] ∧ ∃ fs1 fs2, Cuts fs1 S.flight ∧ Cuts fs2 (finishedBytes S.serverVerify) ∧ 5 ≤ (serverWire S fs1 fs2).length ∧
      ∀ k < (serverWire S fs1 fs2).length, ∃ (rd : Reader) (p q : Bytes), p.length = k ∧ p ++ q = serverWire S fs1 fs2 ∧ q ≠ [] ∧ Ended [.stop] ∧ rd.stream = ofBytes p ++ [.stop] := by
  have D : Draws (random ++ block) random block [] := ⟨⟨[], by simp, by simp⟩, hr, hb, hlt⟩
  refine ⟨D, chunks 16384 S.flight, chunks 16384 (finishedBytes S.serverVerify), cuts_exists _ (by have := flight_length hV hS; omega),
    cuts_exists _ (by simp [finishedBytes, handshakeBytes, serverVerify_length D hV hS]), ?_, fun k hk => ?_⟩
  · rw [serverWire, List.length_append, List.length_append, show (recordBytes 20 3 3 [1]).length = 6 from rfl]
    omega
  · refine ⟨⟨(byteByByte ((serverWire S (chunks 16384 S.flight) (chunks 16384 (finishedBytes S.serverVerify))).take k)).script ++ [.fail false]⟩, _, _, List.length_take_of_le hk.le, List.take_append_drop k _, fun h => ?_, .failed _, ?_⟩
    · rw [List.drop_eq_nil_iff] at h
      omega
    · rw [Reader.stream, List.flatMap_append]
      show (byteByByte _).stream ++ [.stop] = _
      rw [stream_byteByByte]

/-- Two readers that give five bytes, of which one then fails once and gives another. -/
example : (⟨[.data [22, 3, 3, 0, 1], .fail false, .data [14]]⟩ : Reader).stream = (⟨[.data [22, 3, 3, 0, 1]]⟩ : Reader).stream ++ .stop :: ofBytes [14] := rfl

/-- The stream of a conforming server, and the same without its last byte: a case of `C124_needed` in which `new` succeeds on the first. -/
example (m : Mode) (random block : Bytes) (hr : random.length = 32) (hb : block.length = 32) (hlt : leNat block < P256.p) (V : ServerValues) (hV : V.Conforms) :
    ∃ (rd rd' : Reader) (b : UInt8) (c : TlsClient), countBytes rd.stream + 1 < 2 ^ 64 ∧ rd'.stream = rd.stream ++ [.byte b] ∧ TlsClient.new m rd' {} ⟨random ++ block⟩ = (.ok (), c) ∧
      c.reader.reader.stream.length < [Sym.byte b].length := by
  have D : Draws (random ++ block) random block [] := ⟨⟨[], by simp, by simp⟩, hr, hb, hlt⟩
  obtain ⟨S, hS⟩ : ∃ S, S = V.session random (clientPoint block) := ⟨_, rfl⟩
  have h1 : Cuts (chunks 16384 S.flight) S.flight := cuts_exists _ (by have := flight_length hV hS; omega)
  have h2 : Cuts (chunks 16384 (finishedBytes S.serverVerify)) (finishedBytes S.serverVerify) := cuts_exists _ (by simp [finishedBytes, handshakeBytes, serverVerify_length D hV hS])
  have hl := serverWire_length D hV hS h1 h2
  obtain ⟨w, hw⟩ : ∃ w, w = serverWire S (chunks 16384 S.flight) (chunks 16384 (finishedBytes S.serverVerify)) := ⟨_, rfl⟩
  have hne : w ≠ [] := by
    intro h
    rw [h] at hw
    have := congrArg List.length hw
    rw [serverWire, List.length_append, List.length_append, show (recordBytes 20 3 3 [1]).length = 6 from rfl, List.length_nil] at this
    omega
  obtain ⟨c, k1, k2, -⟩ := C29_completes_partial m (byteByByte w) {} ⟨random ++ block⟩ rfl random block [] D V hV S hS _ _ [] ⟨h1, h2, by rw [stream_byteByByte, List.append_nil, hw]⟩
  refine ⟨byteByByte w.dropLast, byteByByte w, w.getLast hne, c, ?_, ?_, k1, by rw [k2]; exact Nat.one_pos⟩
  · rw [stream_byteByByte, countBytes_ofBytes, List.length_dropLast, hw]
    omega
  · rw [stream_byteByByte, stream_byteByByte]
    conv_lhs => rw [← List.dropLast_append_getLast hne]
    rw [ofBytes_append]
    rfl

end Husk
