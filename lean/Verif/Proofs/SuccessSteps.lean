import Verif.Proofs.TraceFinished
import Verif.Props.FlightUnique
/-! The steps of a handshake that succeeds. -/

namespace Husk

open Item Spec TlsReader TlsClient

/-- The steps of a handshake that succeeds: the ClientHello, the four messages of the server, the client's second flight, ChangeCipherSpec and Finished. -/
structure Steps (m : Mode) (rd : Reader) (wr : Writer) (rng : Rng) (c : TlsClient) (cr rest : Bytes) (w1 : TlsWriter) (f : ServerFlight) (pub : Bytes) (s1 s2 s3 s4 t1 : TlsReader) : Prop where
  random : rng.bytes = cr ++ rest
  len : cr.length = 32
  hello : (sendHello m).run (fresh rd wr rng) = (.ok (cr, helloMessage cr), { fresh rd wr rng with rng := ⟨rest⟩, writer := w1 })
  encryptor : w1.encryptor = none
  writerIv : w1.iv = none
  flight : FlightRead m { fresh rd wr rng with rng := ⟨rest⟩, writer := w1 } f s1 s2 s3 s4 c.rng
  fit : FlightFit f pub
  sent : (sendFinished m cr (helloMessage cr) f).run { fresh rd wr rng with rng := c.rng, writer := w1, reader := s4 } =
    (.ok (f.master cr, (f.keys cr).serverKey, f.messages cr pub, .finished ⟨f.clientVerify cr pub⟩),
      { fresh rd wr rng with rng := c.rng, writer := c.writer, reader := { s4 with iv := some (f.keys cr).serverIv } })
  change : (readMessage m).run { s4 with iv := some (f.keys cr).serverIv } = (.ok .ChangeCipherSpecMessage, t1)
  finished : (readMessage m).run (keyed m t1 (f.keys cr).serverKey) = (.ok (.HandshakeMessage (.finished ⟨f.serverVerify cr pub⟩)), c.reader)
  whole : c = { fresh rd wr rng with rng := c.rng, writer := c.writer, reader := c.reader }

theorem steps_of_new {m : Mode} {rd : Reader} {wr : Writer} {rng : Rng} {c : TlsClient} (h : TlsClient.new m rd wr rng = (.ok (), c)) :
    ∃ cr rest w1 f pub s1 s2 s3 s4 t1, Steps m rd wr rng c cr rest w1 f pub s1 s2 s3 s4 t1 := by
  rw [new_of_handshake _ _ _ _ _ _ (by simp)] at h
  have hfr := fresh_fresh rd wr rng
  rcases sendHello_cases m (fresh rd wr rng) hfr.encryptor hfr.count with ⟨h1, h2⟩ | ⟨cr, rest, hr, hl, ⟨w1, h1, h2⟩ | ⟨w1, n, h1, h2, h3, h4, h5⟩⟩
  · rw [handshake, St.bind_of_diverge h1] at h
    cases h
  rotate_left
  · rw [handshake, St.bind_of_err h1] at h
    cases h
  rw [handshake, St.bind_of_ok h1] at h
  dsimp only at h
  obtain ⟨f, c2, hrf, h⟩ := St.bind_eq_ok h
  obtain ⟨s1, s2, s3, s4, rng', hR, rfl⟩ := readFlight_inv hrf
  obtain ⟨X, Y, hfit, _⟩ := hR.fit
  have hw1 : w1.encryptor = none := h2.encryptor.trans hfr.encryptor
  have hn1 : w1.writeCount = 1 := by rw [h2.count, hfr.count]; rfl
  rcases sendFinished_cases m cr f _ hl hfit { fresh rd wr rng with rng := rng', writer := w1, reader := s4 } hw1 (h2.iv.trans hfr.writerIv) (hR.same.2.trans hfr.readerIv)
      (by show w1.writeCount.toNat ≤ 1; rw [hn1]; decide) with ⟨w', g1, -⟩ | ⟨c', n, g1, -⟩
  · rw [St.bind_of_ok g1] at h
    dsimp only at h
    obtain ⟨t1, t2, r1, r2, rfl⟩ := readFinished_inv hfit hl (by exact hR.same.1) h
    exact ⟨cr, rest, w1, f, _, s1, s2, s3, s4, t1, hr, hl, h1, hw1, h2.iv.trans hfr.writerIv, hR, hfit, g1, r1, r2, rfl⟩
  · rw [St.bind_of_err g1] at h
    cases h

/-- Records with the same wire image look the same, whatever the keys. -/
theorem ProtectedStream.public {key iv key' iv' : Bytes} {ty : UInt8} {k : Nat} {rs rs' : List (UInt8 × UInt8 × Bytes)} {w : Bytes} (h : ProtectedStream key iv ty k rs w) :
    ProtectedStream key' iv' ty k rs' w → rs.map publicPart = rs'.map publicPart := by
  induction h generalizing rs' with
  | nil =>
    intro h'
    generalize hw : ([] : Bytes) = w at h'
    cases h' with
    | nil => rfl
    | cons => simp [recordBytes] at hw
  | @cons k a b f ct rs w hct ho hp ih =>
    intro h'
    generalize hw : recordBytes ty a b ct ++ w = w' at h'
    cases h' with
    | nil => simp [recordBytes] at hw
    | @cons _ a' b' f' ct' rs' w' hct' ho' hp' =>
      simp only [recordBytes, List.append_assoc, List.cons_append, List.nil_append, List.cons.injEq, true_and] at hw
      obtain ⟨rfl, rfl, e⟩ := hw
      obtain ⟨e1, e2⟩ := List.append_inj e (by simp)
      have hlen : ct.length = ct'.length := by
        have := congrArg beNat e1
        rw [beNat_beBytes, beNat_beBytes, Nat.mod_eq_of_lt (by omega), Nat.mod_eq_of_lt (by omega)] at this
        exact this
      obtain ⟨rfl, rfl⟩ := List.append_inj e2 hlen
      have l1 := openMsg_length ho
      have l2 := openMsg_length ho'
      rw [List.map_cons, List.map_cons, ih hp']
      simp only [publicPart, List.cons.injEq, Prod.mk.injEq, true_and, and_true]
      omega

/-- What the steps take from the stream: `v0`, …, `v4` are what is left of the clear part at each step. -/
structure Streams (rd : Reader) (c : TlsClient) (key iv verify : Bytes) (s1 s2 s3 s4 t1 : TlsReader) (clear prot : List (UInt8 × UInt8 × Bytes)) (a b : UInt8) (w post v0 v1 v2 v3 v4 : Bytes) : Prop where
  at0 : rd.stream = ofBytes v0 ++ t1.reader.stream
  at1 : s1.reader.stream = ofBytes v1 ++ t1.reader.stream
  at2 : s2.reader.stream = ofBytes v2 ++ t1.reader.stream
  at3 : s3.reader.stream = ofBytes v3 ++ t1.reader.stream
  at4 : s4.reader.stream = ofBytes v4 ++ t1.reader.stream
  image : v0 = clear.flatMap (fun r => recordBytes 22 r.1 r.2.1 r.2.2) ++ recordBytes 20 a b [1]
  fits : ∀ r ∈ clear, r.2.2.length ≤ 2 ^ 14
  last : t1.reader.stream = ofBytes w ++ c.reader.reader.stream
  opened : ProtectedStream key iv 22 0 prot w
  protFits : ∀ r ∈ prot, r.2.2.length ≤ 2 ^ 14 ∧ r.2.2 ≠ []
  finished : t1.handshakeBuffer.buf ++ carried prot = finishedBytes verify ++ post
  short : t1.handshakeBuffer.buf.length < 16

theorem Steps.streams {m : Mode} {rd : Reader} {wr : Writer} {rng : Rng} {c : TlsClient} {cr rest : Bytes} {w1 : TlsWriter} {f : ServerFlight} {pub : Bytes} {s1 s2 s3 s4 t1 : TlsReader}
    (h : Steps m rd wr rng c cr rest w1 f pub s1 s2 s3 s4 t1) :
    ∃ clear prot a b w post v0 v1 v2 v3 v4, Streams rd c (f.keys cr).serverKey (f.keys cr).serverIv (f.serverVerify cr pub) s1 s2 s3 s4 t1 clear prot a b w post v0 v1 v2 v3 v4 := by
  obtain ⟨k1, k2, k3, k4⟩ := h.fit.keys_length h.len
  have h3 := h.flight
  have r1 := h.change
  have r2 := h.finished
  have hv : (f.serverVerify cr pub).length = 12 := (delivered_wf r2).1
  have w5 := (finished_eq _ hv).2.1
  obtain ⟨rs1, T1, A1, M1⟩ := readMessage_inv h3.hello
  obtain ⟨rs2, T2, A2, M2⟩ := readMessage_inv h3.certs
  obtain ⟨rs3, T3, A3, M3⟩ := readMessage_inv h3.ske
  obtain ⟨rs4, T4, A4, M4⟩ := readMessage_inv h3.done
  obtain ⟨rs5, T5, pre5, ccs, rfl, A5, B5, C5, D5⟩ := readMessage_inv r1
  obtain ⟨rs6, T6, A6, M6⟩ := readMessage_inv r2
  have N6 := readMessage_needed r2 T6
  obtain ⟨j6, e6, i6⟩ := takes_bytes M6 w5
  have i6 := i6 (by simp [Spec.HasExtensionBlock])
  subst i6
  simp only [List.append_nil] at e6
  have P1 := Took.plain T1 (by rfl)
  have d1 : s1.decryptor = none := (Took.same T1).1
  have P2 := Took.plain T2 d1
  have d2 : s2.decryptor = none := (Took.same T2).1.trans d1
  have P3 := Took.plain T3 d2
  have d3 : s3.decryptor = none := (Took.same T3).1.trans d2
  have P4 := Took.plain T4 d3
  have d4 : s4.decryptor = none := (Took.same T4).1.trans d3
  have P5 := Took.plain T5 d4
  have P5 : s4.reader.stream = _ := P5
  have P1 : rd.stream = _ := P1
  obtain ⟨w, P6, hw⟩ := Took.opened (m := m) (key := (f.keys cr).serverKey) (iv := (f.keys cr).serverIv) k2 k4 T6 rfl (Took.same T5).2 A6 0 rfl
  have P6 : t1.reader.stream = _ := P6
  have hccs : recordBytes ccs.contentType.toU8 ccs.verMajor ccs.verMinor ccs.fragment = recordBytes 20 ccs.verMajor ccs.verMinor [1] := by
    rw [C5, ccsMessage_fragment D5]; rfl
  have hfin : t1.handshakeBuffer.buf ++ frags rs6 = finishedBytes (f.serverVerify cr pub) ++ c.reader.handshakeBuffer.buf := e6
  have A : AllHandshake (rs1 ++ (rs2 ++ (rs3 ++ (rs4 ++ pre5)))) := by
    intro r hr
    simp only [List.mem_append] at hr
    rcases hr with h | h | h | h | h
    · exact A1 r h
    · exact A2 r h
    · exact A3 r h
    · exact A4 r h
    · exact A5 r h
  have join : ∀ {l l1 l2 : List Sym} {x y : Bytes}, l = ofBytes x ++ l1 → l1 = ofBytes y ++ l2 → l = ofBytes (x ++ y) ++ l2 := by
    intro l l1 l2 x y e1 e2
    rw [e1, e2, ← List.append_assoc, ← ofBytes_append]
  refine ⟨parts (rs1 ++ (rs2 ++ (rs3 ++ (rs4 ++ pre5)))), parts rs6, ccs.verMajor, ccs.verMinor, w, c.reader.handshakeBuffer.buf, _, _, _, _, _, join P1 (join P2 (join P3 (join P4 P5))),
    join P2 (join P3 (join P4 P5)), join P3 (join P4 P5), join P4 P5, P5, ?_, ?_, P6, hw, ?_, ?_, ?_⟩
  · rw [← parts_wire A]
    simp only [List.flatMap_append, List.flatMap_cons, List.flatMap_nil, List.append_nil, hccs, List.append_assoc]
  · have F5 := Took.fits T5 d4
    intro r hr
    obtain ⟨rec, hrec, rfl⟩ := List.mem_map.mp hr
    simp only [List.mem_append] at hrec
    rcases hrec with h | h | h | h | h
    · exact Took.fits T1 (by rfl) rec h
    · exact Took.fits T2 d1 rec h
    · exact Took.fits T3 d2 rec h
    · exact Took.fits T4 d3 rec h
    · exact F5 rec (List.mem_append_left _ h)
  · intro r hr
    obtain ⟨rec, hrec, rfl⟩ := List.mem_map.mp hr
    exact ⟨T6.le rec hrec, N6.filled rec hrec (A6 rec hrec)⟩
  · show _ ++ (parts rs6).flatMap _ = _
    rw [parts_frags]; exact hfin
  · exact finished_waits hv hfin (readMessage_ccs r1)

/-- The stream determines the clear part. -/
theorem Streams.of_completed {m : Mode} {rd : Reader} {wr : Writer} {rng : Rng} {c : TlsClient} {S : Session} {clear prot clear0 prot0 : List (UInt8 × UInt8 × Bytes)} {a b a0 b0 : UInt8}
    {pw pre post w post0 v0 v1 v2 v3 v4 key iv verify : Bytes} {s1 s2 s3 s4 t1 : TlsReader} (h : Completed m rd wr rng c S clear prot a b pw pre post)
    (hs : Streams rd c key iv verify s1 s2 s3 s4 t1 clear0 prot0 a0 b0 w post0 v0 v1 v2 v3 v4) :
    v0 = clear.flatMap (fun r => recordBytes 22 r.1 r.2.1 r.2.2) ++ recordBytes 20 a b [1] ∧ w = pw ∧ prot0.map publicPart = prot.map publicPart := by
  have e := h.stream.symm.trans (show rd.stream = ofBytes (v0 ++ w) ++ c.reader.reader.stream by rw [hs.at0, hs.last, ← List.append_assoc, ← ofBytes_append])
  rw [hs.image] at e
  have e := ofBytes_inj (List.append_cancel_right e)
  obtain ⟨rfl, e1⟩ := clear_inj h.fits hs.fits (x := a :: b :: (beBytes 2 1 ++ [1]) ++ pw) (x' := a0 :: b0 :: (beBytes 2 1 ++ [1]) ++ w) (by simpa [recordBytes] using e)
  simp only [List.cons_append, List.cons.injEq] at e1
  obtain ⟨rfl, rfl, e1⟩ := e1
  have e1 := List.append_cancel_left e1
  subst e1
  exact ⟨hs.image, rfl, hs.opened.public h.opened⟩

end Husk
