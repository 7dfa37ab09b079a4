import Verif.Proofs.SuccessSteps
import Verif.Props.FlightConstantTime
import Verif.Props.ApiConstantTime
import Verif.Props.ConstantTime
/-! Two handshakes that succeed, step by step: the lemmas behind C112. -/

namespace Husk

open TSt Spec TlsReader TlsClient

/-! ### The computations with observations have the results of the model -/

namespace TlsReader

variable {m : Mode} {key : Option Bytes}

theorem readHandshakeT_agrees : Agrees (HasKey m key) (readHandshakeT m key) (readHandshake m) := by
  refine Agrees.bind readMessageT_agrees fun msg => Agrees.see ?_
  cases msg with
  | HandshakeMessage h => exact Agrees.pure _
  | AlertMessage a => exact Agrees.lift _
  | ChangeCipherSpecMessage => exact Agrees.lift _
  | ApplicationDataMessage d => exact Agrees.lift _

theorem readChangeCipherSpecT_agrees : Agrees (HasKey m key) (readChangeCipherSpecT m key) (readChangeCipherSpec m) := by
  refine Agrees.bind readMessageT_agrees fun msg => Agrees.see ?_
  cases msg with
  | ChangeCipherSpecMessage => exact Agrees.pure _
  | HandshakeMessage h => exact Agrees.lift _
  | AlertMessage a => exact Agrees.lift _
  | ApplicationDataMessage d => exact Agrees.lift _

end TlsReader

namespace TlsClient

variable {m : Mode} {key : Option Bytes}

theorem serverHelloT_agrees : Agrees (HasKey m key) (expectT m key pickServerHello) (expectServerHello m) := by
  refine Agrees.bind readHandshakeT_agrees fun h => Agrees.see ?_
  cases h <;> first | exact Agrees.pure _ | exact Agrees.lift _

theorem certificateT_agrees : Agrees (HasKey m key) (expectT m key pickCertificate) (expectCertificate m) := by
  refine Agrees.bind readHandshakeT_agrees fun h => Agrees.see ?_
  cases h <;> first | exact Agrees.pure _ | exact Agrees.lift _

theorem serverKeyExchangeT_agrees : Agrees (HasKey m key) (expectT m key pickServerKeyExchange) (expectServerKeyExchange m) := by
  refine Agrees.bind readHandshakeT_agrees fun h => Agrees.see ?_
  cases h <;> first | exact Agrees.pure _ | exact Agrees.lift _

theorem serverHelloDoneT_agrees : Agrees (HasKey m key) (expectT m key pickServerHelloDone) (expectServerHelloDone m) := by
  refine Agrees.bind readHandshakeT_agrees fun h => Agrees.see ?_
  cases h <;> first | exact Agrees.pure _ | exact Agrees.lift _

theorem finishedT_agrees : Agrees (HasKey m key) (expectT m key pickFinished) (expectFinished m) := by
  refine Agrees.bind readHandshakeT_agrees fun h => Agrees.see ?_
  cases h <;> first | exact Agrees.pure _ | exact Agrees.lift _

theorem onReaderT_follows {x : TSt TlsReader α} {y : St TlsReader α} (h : Agrees (HasKey m key) x y) : Agrees (fun c : TlsClient => c.reader.HasKey m key) (onReaderT x) (onReader y) :=
  Agrees.zoom h (fun _ h => h) fun _ _ _ h => h

theorem readFlightT_agrees : Agrees (fun c : TlsClient => c.reader.HasKey m none) (readFlightT m) (readFlight m) := by
  refine Agrees.bind (onReaderT_follows serverHelloT_agrees) fun hello => ?_
  refine Agrees.bind (Agrees.ofTr rfl) fun _ => ?_
  refine Agrees.bind (onReaderT_follows certificateT_agrees) fun certs => ?_
  refine Agrees.bind (onReaderT_follows serverKeyExchangeT_agrees) fun ske => ?_
  refine Agrees.bind (fun c h => ⟨rfl, h⟩) fun keys => ?_
  exact Agrees.bind (onReaderT_follows serverHelloDoneT_agrees) fun _ => Agrees.pure _

theorem sendHelloT_follows (m : Mode) (c : TlsClient) (h : c.writer.encryptor = none) : ((sendHelloT m).run c).2 = (sendHello m).run c := by
  unfold sendHelloT sendHello
  refine follows (x := quiet (onRng (Rng.fillBytes 32))) rfl fun cr c1 h1 => ?_
  have e : c1.writer = c.writer := by
    have : c1 = { c with rng := ((Rng.fillBytes 32).run c.rng).2 } := (congrArg Prod.snd h1).symm
    rw [this]
  show (TSt.run (quiet (St.lift (clientHello cr)) >>= _) c1).2 = _
  refine follows (x := quiet (St.lift (clientHello cr))) rfl fun hello c2 h2 => ?_
  have e2 : c2 = c1 := (congrArg Prod.snd h2).symm
  subst e2
  refine follows ?_ fun _ _ _ => rfl
  exact ((Agrees.zoom (TlsWriter.writeHandshakeT_agrees (m := m) (key := none) hello) (fun _ h => h) fun _ _ _ h => h :
    Agrees (fun c : TlsClient => c.writer.HasKey m none) (onWriterT _) (onWriter _)) c2 (by show c2.writer.encryptor = none; rw [e]; exact h)).1

theorem readFinishedT_follows (m : Mode) (master readKey msgs : Bytes) (finished : Handshake) (c : TlsClient) (h : c.reader.decryptor = none) :
    ((readFinishedT m master readKey msgs finished).run c).2 = (readFinished m master readKey msgs finished).run c := by
  unfold readFinishedT readFinished
  have a1 := onReaderT_follows (m := m) (key := none) readChangeCipherSpecT_agrees c h
  refine follows a1.1 fun _ c1 h1 => ?_
  have k1 : c1.reader.decryptor = none := by have := a1.2; rw [h1] at this; exact this
  refine follows (x := quiet (onReader (TlsReader.setDecryptor (.chacha m readKey)))) rfl fun _ c2 h2 => ?_
  have k2 : c2.reader.decryptor = some (.chacha m readKey) := by
    obtain ⟨s', g, rfl⟩ := onReader_inv h2
    simp only [TlsReader.setDecryptor, k1] at g
    cases g
    rfl
  refine follows (onReaderT_follows (m := m) (key := some readKey) finishedT_agrees c2 k2).1 fun vd c3 _ => ?_
  show ((checkFinishedT m master msgs finished vd).res, c3) = _
  rw [checkFinishedT_res]
  rfl

theorem handshakeT_follows (m : Mode) (rd : Reader) (wr : Writer) (rng : Rng) : ((handshakeT m).run (fresh rd wr rng)).2 = (handshake m).run (fresh rd wr rng) := by
  have hfr := fresh_fresh rd wr rng
  unfold handshakeT handshake
  refine follows (sendHelloT_follows m _ hfr.encryptor) fun hello c1 h1 => ?_
  rcases sendHello_cases m (fresh rd wr rng) hfr.encryptor hfr.count with ⟨g1, -⟩ | ⟨cr, rest, hr, hl, ⟨w1, g1, g2⟩ | ⟨w1, n, g1, -⟩⟩
  · rw [g1] at h1; cases h1
  rotate_left
  · rw [g1] at h1; cases h1
  rw [g1] at h1
  cases h1
  dsimp only
  refine follows (readFlightT_agrees _ (by rfl)).1 fun f c2 h2 => ?_
  obtain ⟨s1, s2, s3, s4, rng', hR, rfl⟩ := readFlight_inv h2
  obtain ⟨X, Y, hfit, _⟩ := hR.fit
  have hw1 : w1.encryptor = none := g2.encryptor.trans hfr.encryptor
  have hn1 : w1.writeCount = 1 := by rw [g2.count, hfr.count]; rfl
  refine follows (C105_same_result m hl hfit hw1 (g2.iv.trans hfr.writerIv) (hR.same.2.trans hfr.readerIv) [] [] (helloMessage cr) ⟨[]⟩).1 fun sent c3 h3 => ?_
  rcases sendFinished_cases m cr f _ hl hfit { fresh rd wr rng with rng := rng', writer := w1, reader := s4 } hw1 (g2.iv.trans hfr.writerIv) (hR.same.2.trans hfr.readerIv)
      (by show w1.writeCount.toNat ≤ 1; rw [hn1]; decide) with ⟨w', k1, -⟩ | ⟨c', n, k1, -⟩
  · cases h3.symm.trans k1
    exact readFinishedT_follows m _ _ _ _ _ hR.same.1
  · cases h3.symm.trans k1

end TlsClient

/-! ### Two handshakes -/

/-- A call whose observations depend on the bytes it takes, on readers that hold the same bytes. -/
theorem TlsReader.Frames.both {m : Mode} {x : TSt TlsReader α} {y : St TlsReader α} (hF : Frames x y) (hA : Agrees (HasKey m none) x y) {s s' s1 s1' : TlsReader} {a a' : α} (hl : Level s s')
    (h : y.run s = (.ok a, s1)) (h' : y.run s' = (.ok a', s1')) {v v1 : Bytes} {z z' : List Sym} (e : s.reader.stream = ofBytes v ++ z) (e' : s'.reader.stream = ofBytes v ++ z')
    (e1 : s1.reader.stream = ofBytes v1 ++ z) : a' = a ∧ BothOk x x s s' a a s1 s1' ∧ Level s1 s1' ∧ s1'.reader.stream = ofBytes v1 ++ z' := by
  obtain ⟨w, k1, k2⟩ := hF s s' s1 a hl h
  have hv : v = w ++ v1 := by
    rw [e, e1, ← List.append_assoc, ← ofBytes_append] at k1
    exact ofBytes_inj (List.append_cancel_right k1)
  obtain ⟨t, b1, b2, b3⟩ := k2 (ofBytes v1 ++ z') (by rw [e', hv, ofBytes_append, List.append_assoc])
  have ha := (hA s' hl.clear').1
  obtain ⟨u, c1, c2⟩ := b1
  rw [h', c2] at ha
  cases ha
  exact ⟨rfl, ⟨u, c1, c2⟩, b2, b3⟩

theorem TSt.BothOk.of_alike {P : σ → τ → Prop} {R : α → β → Prop} {x : TSt σ α} {y : TSt τ β} {s s1 : σ} {t t1 : τ} {a : α} {b : β} (h : AlikeAt P R x y s t) (hx : (x.run s).2 = (.ok a, s1))
    (hy : (y.run t).2 = (.ok b, t1)) : BothOk x y s t a b s1 t1 ∧ P s1 t1 := by
  obtain ⟨h1, h2, h3⟩ := h
  rw [hx, hy] at h3
  exact ⟨⟨(x.run s).1, Prod.ext rfl hx, Prod.ext h1.symm hy⟩, h3⟩

section
variable {rd rd' : Reader} {wr wr' : Writer} {rng rng' : Rng} {c c' : TlsClient} {cr cr' rest rest' : Bytes} {w1 w1' : TlsWriter} {f f' : ServerFlight} {pub pub' : Bytes}
  {s1 s2 s3 s4 t1 s1' s2' s3' s4' t1' : TlsReader}

theorem onReaderT_both {x : TSt TlsReader α} {y : TSt TlsReader β} {c c' : TlsClient} {a : α} {b : β} {s s' : TlsReader} (h : BothOk x y c.reader c'.reader a b s s') :
    BothOk (onReaderT x) (onReaderT y) c c' a b { c with reader := s } { c' with reader := s' } := h.zoom

theorem ProtectedStream.length_le {key iv : Bytes} {ty : UInt8} {k : Nat} {rs : List (UInt8 × UInt8 × Bytes)} {w : Bytes} (h : ProtectedStream key iv ty k rs w) : rs.length ≤ w.length := by
  induction h with
  | nil => exact Nat.le_refl _
  | cons _ _ _ ih =>
    simp only [List.length_cons, List.length_append, recordBytes]
    omega

/-- The two ClientHellos. -/
theorem hello_both {m : Mode} (h : Steps m rd wr rng c cr rest w1 f pub s1 s2 s3 s4 t1) (h' : Steps m rd' wr' rng' c' cr' rest' w1' f' pub' s1' s2' s3' s4' t1') (hw : Writer.Twin wr wr') :
    BothOk (sendHelloT m) (sendHelloT m) (fresh rd wr rng) (fresh rd' wr' rng') (cr, helloMessage cr) (cr', helloMessage cr')
      { fresh rd wr rng with rng := ⟨rest⟩, writer := w1 } { fresh rd' wr' rng' with rng := ⟨rest'⟩, writer := w1' } ∧ Writer.Twin w1.writer w1'.writer ∧ w1.writeCount = w1'.writeCount := by
  have on : ∀ (b : Handshake), Agrees (fun c : TlsClient => c.writer.HasKey m none) (onWriterT (TlsWriter.writeHandshakeT m none b)) (onWriter (TlsWriter.writeHandshake m b)) :=
    fun b => Agrees.zoom (TlsWriter.writeHandshakeT_agrees (key := none) b) (fun _ h => h) fun _ _ _ h => h
  have one : ∀ {rd : Reader} {wr : Writer} {rng : Rng} {cr rest : Bytes} {w1 : TlsWriter}, rng.bytes = cr ++ rest → cr.length = 32 →
      (sendHello m).run (fresh rd wr rng) = (.ok (cr, helloMessage cr), { fresh rd wr rng with rng := ⟨rest⟩, writer := w1 }) →
      (onRng (Rng.fillBytes 32)).run (fresh rd wr rng) = (.ok cr, { fresh rd wr rng with rng := ⟨rest⟩ }) ∧
      ((onWriterT (TlsWriter.writeHandshakeT m none (helloMessage cr))).run { fresh rd wr rng with rng := ⟨rest⟩ }).2 = (.ok (), { fresh rd wr rng with rng := ⟨rest⟩, writer := w1 }) := by
    intro rd wr rng cr rest w1 hr hl h
    have hf : (onRng (Rng.fillBytes 32)).run (fresh rd wr rng) = (.ok cr, { fresh rd wr rng with rng := ⟨rest⟩ }) := by
      have e := onRng_ok (c := fresh rd wr rng) (Ecdhe.fillBytes_ok (r := rng) (n := 32) (by rw [hr, List.length_append]; omega))
      rw [hr, List.take_left' hl, List.drop_left' hl] at e
      exact e
    refine ⟨hf, ?_⟩
    rw [sendHello, St.bind_of_ok hf, (clientHello_eq cr hl).1, St.bind_of_ok (St.lift_run _ _)] at h
    obtain ⟨⟨⟩, c1, g1, g2⟩ := St.bind_eq_ok h
    cases g2
    rw [(on (helloMessage cr) _ (by rfl)).1]
    exact g1
  obtain ⟨a1, a2⟩ := one h.random h.len h.hello
  obtain ⟨b1, b2⟩ := one h'.random h'.len h'.hello
  obtain ⟨e1, e2, e3⟩ := clientHello_eq cr h.len
  obtain ⟨e1', e2', e3'⟩ := clientHello_eq cr' h'.len
  have hb : BeforeKeys { fresh rd wr rng with rng := ⟨rest⟩ } { fresh rd' wr' rng' with rng := ⟨rest'⟩ } := ⟨⟨rfl, rfl, rfl, rfl, rfl, hw⟩, rfl, rfl⟩
  obtain ⟨B, T⟩ := BothOk.of_alike (onWriterT_before (TlsWriter.writeHandshakeT_clear ⟨_, _, e2, e2', e3.trans e3'.symm⟩) _ _ hb) a2 b2
  refine ⟨?_, T.writer.writer, T.writer.count⟩
  unfold sendHelloT
  refine (BothOk.quiet a1 b1).andThen ?_
  rw [h.len, h'.len]
  refine (BothOk.see _ _ _).andThen ((BothOk.quiet (by rw [e1]; rfl) (by rw [e1']; rfl)).andThen (B.andThen ⟨[], rfl, rfl⟩))

theorem computeKeys_consumes {m : Mode} {data : Bytes} {r s : Rng} {k : Bytes × Bytes} (h : (Ecdhe.computeKeys m data).run r = (.ok k, s)) : s.bytes.length ≤ r.bytes.length := by
  obtain ⟨_, _, _, x, _, _, h3, _⟩ := computeKeys_ok h
  rcases C55_only m r with ⟨s', g⟩ | ⟨blocks, block, more, x', e, _, _, _, _, g⟩
  · rw [g] at h3; cases h3
  · rw [g] at h3
    cases h3
    rw [e]
    simp only [List.length_append]
    omega

/-- The server's first flights. -/
theorem flight_both (h : Steps .release rd wr rng c cr rest w1 f pub s1 s2 s3 s4 t1) (h' : Steps .release rd' wr' rng' c' cr' rest' w1' f' pub' s1' s2' s3' s4' t1') (hr : Reader.Twin rd rd')
    (hn : rng.bytes.length - c.rng.bytes.length = rng'.bytes.length - c'.rng.bytes.length) {v0 v1 v2 v3 v4 : Bytes} {z z' : List Sym} (e0 : rd.stream = ofBytes v0 ++ z)
    (e1 : s1.reader.stream = ofBytes v1 ++ z) (e2 : s2.reader.stream = ofBytes v2 ++ z) (e3 : s3.reader.stream = ofBytes v3 ++ z) (e4 : s4.reader.stream = ofBytes v4 ++ z)
    (e0' : rd'.stream = ofBytes v0 ++ z') :
    BothOk (readFlightT .release) (readFlightT .release) { fresh rd wr rng with rng := ⟨rest⟩, writer := w1 } { fresh rd' wr' rng' with rng := ⟨rest'⟩, writer := w1' } f f'
      { fresh rd wr rng with rng := c.rng, writer := w1, reader := s4 } { fresh rd' wr' rng' with rng := c'.rng, writer := w1', reader := s4' } ∧
      Level s4 s4' ∧ s4'.reader.stream = ofBytes v4 ++ z' ∧ serverMessages f' = serverMessages f := by
  have F := h.flight
  have F' := h'.flight
  have L0 : Level (TlsReader.new rd) (TlsReader.new rd') := ⟨rfl, rfl, rfl, rfl, hr⟩
  obtain ⟨q1, B1, L1, g1⟩ := Frames.both Frames.serverHello serverHelloT_agrees L0 (expectServerHello_iff.mpr F.hello) (expectServerHello_iff.mpr F'.hello) e0 e0' e1
  obtain ⟨q2, B2, L2, g2⟩ := Frames.both Frames.certificate certificateT_agrees L1 (expectCertificate_iff.mpr F.certs) (expectCertificate_iff.mpr F'.certs) e1 g1 e2
  obtain ⟨q3, B3, L3, g3⟩ := Frames.both Frames.serverKeyExchange serverKeyExchangeT_agrees L2 (expectServerKeyExchange_iff.mpr F.ske) (expectServerKeyExchange_iff.mpr F'.ske) e2 g2 e3
  obtain ⟨-, B4, L4, g4⟩ := Frames.both Frames.serverHelloDone serverHelloDoneT_agrees L3 (expectServerHelloDone_iff.mpr F.done) (expectServerHelloDone_iff.mpr F'.done) e3 g3 e4
  refine ⟨?_, L4, g4, by simp only [serverMessages, q1, q2, q3]⟩
  have K := F.keys
  have K' := F'.keys
  rw [q3] at K'
  have l1 := computeKeys_consumes K
  have l2 := computeKeys_consumes K'
  have T := C88_compute_keys_partial f.ske.data _ _ _ _ _ _ K K' (by
    have a := h.random; have a' := h'.random; have b := h.len; have b' := h'.len
    rw [a, a', List.length_append, List.length_append] at hn
    show rest.length - _ = rest'.length - _
    have l1 : c.rng.bytes.length ≤ rest.length := l1
    have l2 : c'.rng.bytes.length ≤ rest'.length := l2
    omega)
  unfold readFlightT
  refine (onReaderT_both (c := { fresh rd wr rng with rng := ⟨rest⟩, writer := w1 }) (c' := { fresh rd' wr' rng' with rng := ⟨rest'⟩, writer := w1' }) B1).andThen ?_
  have hck : (checkServerHelloT f.hello).res = .ok () := by
    show checkServerHello f.hello = _
    rw [checkServerHello_eq, if_pos F.check]
  refine (BothOk.ofTr hck hck rfl _ _).andThen ?_
  refine (onReaderT_both (c := { fresh rd wr rng with rng := ⟨rest⟩, writer := w1, reader := s1 }) (c' := { fresh rd' wr' rng' with rng := ⟨rest'⟩, writer := w1', reader := s1' }) B2).andThen ?_
  refine (onReaderT_both (c := { fresh rd wr rng with rng := ⟨rest⟩, writer := w1, reader := s2 }) (c' := { fresh rd' wr' rng' with rng := ⟨rest'⟩, writer := w1', reader := s2' }) B3).andThen ?_
  refine BothOk.andThen (a := (f.keyData, f.preMasterSecret)) (b := (f'.keyData, f'.preMasterSecret)) (s1 := { fresh rd wr rng with rng := c.rng, writer := w1, reader := s3 }) (t1 := { fresh rd' wr' rng' with rng := c'.rng, writer := w1', reader := s3' })
    ⟨(Ecdhe.computeKeysT .release f.ske.data ⟨rest⟩).trace, ?_, ?_⟩ ?_
  · exact Prod.ext rfl (onRng_ok (c := { fresh rd wr rng with rng := ⟨rest⟩, writer := w1, reader := s3 }) K)
  · exact Prod.ext T.symm (onRng_ok (c := { fresh rd' wr' rng' with rng := ⟨rest'⟩, writer := w1', reader := s3' }) K')
  refine (onReaderT_both (c := { fresh rd wr rng with rng := c.rng, writer := w1, reader := s3 }) (c' := { fresh rd' wr' rng' with rng := c'.rng, writer := w1', reader := s3' }) B4).andThen ⟨[], rfl, ?_⟩
  rw [← q1, ← q2, ← q3]
  rfl

/-- The front of the server's first flights. -/
theorem front_both {m : Mode} (h : Steps m rd wr rng c cr rest w1 f pub s1 s2 s3 s4 t1) (h' : Steps m rd' wr' rng' c' cr' rest' w1' f' pub' s1' s2' s3' s4' t1') (hr : Reader.Twin rd rd')
    {v0 v1 v2 v3 : Bytes} {z z' : List Sym} (e0 : rd.stream = ofBytes v0 ++ z) (e1 : s1.reader.stream = ofBytes v1 ++ z) (e2 : s2.reader.stream = ofBytes v2 ++ z)
    (e3 : s3.reader.stream = ofBytes v3 ++ z) (e0' : rd'.stream = ofBytes v0 ++ z') :
    (BothOk (onReaderT (expectT m none pickServerHello)) (onReaderT (expectT m none pickServerHello)) { fresh rd wr rng with rng := ⟨rest⟩, writer := w1 }
        { fresh rd' wr' rng' with rng := ⟨rest'⟩, writer := w1' } f.hello f'.hello { fresh rd wr rng with rng := ⟨rest⟩, writer := w1, reader := s1 }
        { fresh rd' wr' rng' with rng := ⟨rest'⟩, writer := w1', reader := s1' } ∧
      BothOk (onReaderT (expectT m none pickCertificate)) (onReaderT (expectT m none pickCertificate)) { fresh rd wr rng with rng := ⟨rest⟩, writer := w1, reader := s1 }
        { fresh rd' wr' rng' with rng := ⟨rest'⟩, writer := w1', reader := s1' } f.certs f'.certs { fresh rd wr rng with rng := ⟨rest⟩, writer := w1, reader := s2 }
        { fresh rd' wr' rng' with rng := ⟨rest'⟩, writer := w1', reader := s2' } ∧
      BothOk (onReaderT (expectT m none pickServerKeyExchange)) (onReaderT (expectT m none pickServerKeyExchange)) { fresh rd wr rng with rng := ⟨rest⟩, writer := w1, reader := s2 }
        { fresh rd' wr' rng' with rng := ⟨rest'⟩, writer := w1', reader := s2' } f.ske f'.ske { fresh rd wr rng with rng := ⟨rest⟩, writer := w1, reader := s3 }
        { fresh rd' wr' rng' with rng := ⟨rest'⟩, writer := w1', reader := s3' }) ∧
      f'.hello = f.hello ∧ f'.certs = f.certs ∧ f'.ske = f.ske ∧ Level s3 s3' ∧ s3'.reader.stream = ofBytes v3 ++ z' := by
  have F := h.flight
  have F' := h'.flight
  have L0 : Level (TlsReader.new rd) (TlsReader.new rd') := ⟨rfl, rfl, rfl, rfl, hr⟩
  obtain ⟨q1, B1, L1, g1⟩ := Frames.both Frames.serverHello serverHelloT_agrees L0 (expectServerHello_iff.mpr F.hello) (expectServerHello_iff.mpr F'.hello) e0 e0' e1
  obtain ⟨q2, B2, L2, g2⟩ := Frames.both Frames.certificate certificateT_agrees L1 (expectCertificate_iff.mpr F.certs) (expectCertificate_iff.mpr F'.certs) e1 g1 e2
  obtain ⟨q3, B3, L3, g3⟩ := Frames.both Frames.serverKeyExchange serverKeyExchangeT_agrees L2 (expectServerKeyExchange_iff.mpr F.ske) (expectServerKeyExchange_iff.mpr F'.ske) e2 g2 e3
  refine ⟨⟨?_, ?_, ?_⟩, q1, q2, q3, L3, g3⟩
  · rw [q1]
    exact onReaderT_both (c := { fresh rd wr rng with rng := ⟨rest⟩, writer := w1 }) (c' := { fresh rd' wr' rng' with rng := ⟨rest'⟩, writer := w1' }) B1
  · rw [q2]
    exact onReaderT_both (c := { fresh rd wr rng with rng := ⟨rest⟩, writer := w1, reader := s1 }) (c' := { fresh rd' wr' rng' with rng := ⟨rest'⟩, writer := w1', reader := s1' }) B2
  · rw [q3]
    exact onReaderT_both (c := { fresh rd wr rng with rng := ⟨rest⟩, writer := w1, reader := s2 }) (c' := { fresh rd' wr' rng' with rng := ⟨rest'⟩, writer := w1', reader := s2' }) B3

/-- The two Finished messages are read. -/
theorem expectFinished_both {k k' iv iv' v v' : Bytes} (hk : k.length = 32) (hk' : k'.length = 32) (li : iv.length = 12) (li' : iv'.length = 12) (hv : v.length = 12) (hv' : v'.length = 12)
    {t1 t1' u u' : TlsReader} {prot prot' : List (UInt8 × UInt8 × Bytes)} {w w' post post' : Bytes} {l l' : List Sym} (hl : Level t1 t1') (hiv : t1.iv = some iv) (hiv' : t1'.iv = some iv')
    (ho : ProtectedStream k iv 22 0 prot w) (ho' : ProtectedStream k' iv' 22 0 prot' w') (hpub : prot.map publicPart = prot'.map publicPart) (hfit : ∀ r ∈ prot, r.2.2.length ≤ 2 ^ 14 ∧ r.2.2 ≠ [])
    (hs : t1.reader.stream = ofBytes w ++ l) (hs' : t1'.reader.stream = ofBytes w' ++ l') (hfin : t1.handshakeBuffer.buf ++ carried prot = finishedBytes v ++ post)
    (hfin' : t1'.handshakeBuffer.buf ++ carried prot' = finishedBytes v' ++ post') (hshort : t1.handshakeBuffer.buf.length < 16)
    (hu : (readMessage .release).run (keyed .release t1 k) = (.ok (.HandshakeMessage (.finished ⟨v⟩)), u)) (hu' : (readMessage .release).run (keyed .release t1' k') = (.ok (.HandshakeMessage (.finished ⟨v'⟩)), u')) :
    BothOk (expectT .release (some k) pickFinished) (expectT .release (some k') pickFinished) (keyed .release t1 k) (keyed .release t1' k') ⟨v⟩ ⟨v'⟩ u u' ∧ Reader.Twin u.reader u'.reader := by
  have hbuf := congrArg HandshakeBuffer.buf hl.buffer
  have hfuel : prot.length ≤ t1.reader.bytes + 1 := by
    have := ho.length_le
    rw [Reader.bytes_eq, hs, countBytes_append, countBytes_ofBytes]
    omega
  obtain ⟨t, t', B2, T2⟩ := finishedLoop_both hk hk' li li' hv hv' (post := post) (post' := post') (l := l) (l' := l') prot prot' (t1.reader.bytes + 1) 0 w w'
    (keyed .release t1 k) (keyed .release t1' k') rfl rfl hiv hiv' rfl rfl hl.reader ho ho' hpub hfit hs hs' hfin hfin' (congrArg List.length hbuf) hshort hfuel
  have n1 := (finished_front hv hfin).2 hshort
  have n1' := (finished_front hv' hfin').2 (by rw [← hbuf]; exact hshort)
  have B3 : BothOk (readMessageT .release (some k)) (readMessageT .release (some k')) (keyed .release t1 k) (keyed .release t1' k') (.HandshakeMessage (.finished ⟨v⟩)) (.HandshakeMessage (.finished ⟨v'⟩)) t t' := by
    refine BothOk.andThen (a := none) (b := none) (s1 := keyed .release t1 k) (t1 := keyed .release t1' k') ?_ ?_
    · refine (BothOk.get _ _).andThen ?_
      have : (keyed .release t1 k).handshakeBuffer = (keyed .release t1' k').handshakeBuffer := hl.buffer
      rw [this]
      refine (BothOk.see _ _ _).andThen (BothOk.quiet ?_ ?_)
      · simp only [onBuffer, St.zoom_run, keyed]
        rw [show t1.handshakeBuffer = ⟨t1.handshakeBuffer.buf⟩ from rfl, n1]
      · simp only [onBuffer, St.zoom_run, keyed]
        rw [show t1'.handshakeBuffer = ⟨t1'.handshakeBuffer.buf⟩ from rfl, n1']
    · refine (BothOk.get _ _).andThen ?_
      have : (keyed .release t1' k').reader.bytes = t1.reader.bytes := (hl.reader.bytes).symm
      rw [this]
      exact B2
  have E : t = u ∧ t' = u' := by
    obtain ⟨o, x1, x2⟩ := B3
    have y1 := (readMessageT_agrees (m := .release) (key := some k) (keyed .release t1 k) rfl).1
    have y2 := (readMessageT_agrees (m := .release) (key := some k') (keyed .release t1' k') rfl).1
    rw [x1, hu] at y1
    rw [x2, hu'] at y2
    exact ⟨congrArg Prod.snd y1, congrArg Prod.snd y2⟩
  obtain ⟨rfl, rfl⟩ := E
  refine ⟨?_, T2⟩
  have B : BothOk (readHandshakeT .release (some k)) (readHandshakeT .release (some k')) (keyed .release t1 k) (keyed .release t1' k') (.finished ⟨v⟩) (.finished ⟨v'⟩) t t' := by
    unfold readHandshakeT
    exact B3.andThen ((BothOk.see _ _ _).andThen ⟨[], rfl, rfl⟩)
  unfold expectT
  exact B.andThen ((BothOk.see _ _ _).andThen ⟨[], rfl, rfl⟩)

/-- The parts of the second flights make two second flights. -/
theorem readFinished_both {k k' master master' msgs msgs' : Bytes} {fin fin' : Handshake} {v v' : VerifyData} {c c' : TlsClient} {t1 t1' u u' : TlsReader}
    (B1 : BothOk (readChangeCipherSpecT .release none) (readChangeCipherSpecT .release none) c.reader c'.reader () () t1 t1') (d : t1.decryptor = none) (d' : t1'.decryptor = none)
    (B4 : BothOk (expectT .release (some k) pickFinished) (expectT .release (some k') pickFinished) (keyed .release t1 k) (keyed .release t1' k') v v' u u')
    (B5 : BothOk (ofTr (checkFinishedT .release master msgs fin v)) (ofTr (checkFinishedT .release master' msgs' fin' v')) { c with reader := u } { c' with reader := u' } () () { c with reader := u } { c' with reader := u' }) :
    BothOk (readFinishedT .release master k msgs fin) (readFinishedT .release master' k' msgs' fin') c c' () () { c with reader := u } { c' with reader := u' } := by
  have hset : ∀ (s : TlsReader) (k : Bytes), s.decryptor = none → (TlsReader.setDecryptor (.chacha .release k)).run s = (.ok (), keyed .release s k) := by
    intro s k hd
    simp only [TlsReader.setDecryptor, hd, keyed]
  unfold readFinishedT
  refine (onReaderT_both B1).andThen ?_
  refine (BothOk.quiet (onReader_ok (c := { c with reader := t1 }) (hset t1 k d)) (onReader_ok (c := { c' with reader := t1' }) (hset t1' k' d'))).andThen ?_
  exact (onReaderT_both (c := { c with reader := keyed .release t1 k }) (c' := { c' with reader := keyed .release t1' k' }) B4).andThen B5

/-- The server's second flights. -/
theorem finished_both (h : Steps .release rd wr rng c cr rest w1 f pub s1 s2 s3 s4 t1) (h' : Steps .release rd' wr' rng' c' cr' rest' w1' f' pub' s1' s2' s3' s4' t1') (hl : Level s4 s4')
    {clear clear' prot prot' : List (UInt8 × UInt8 × Bytes)} {a b a' b' : UInt8} {w w' post post' v0 v1 v2 v3 v4 v0' v1' v2' v3' v4' : Bytes}
    (hs : Streams rd c (f.keys cr).serverKey (f.keys cr).serverIv (f.serverVerify cr pub) s1 s2 s3 s4 t1 clear prot a b w post v0 v1 v2 v3 v4)
    (hs' : Streams rd' c' (f'.keys cr').serverKey (f'.keys cr').serverIv (f'.serverVerify cr' pub') s1' s2' s3' s4' t1' clear' prot' a' b' w' post' v0' v1' v2' v3' v4')
    (e4 : s4'.reader.stream = ofBytes v4 ++ t1'.reader.stream) (hpub : prot.map publicPart = prot'.map publicPart) (hm : serverMessages f' = serverMessages f) :
    BothOk (readFinishedT .release (f.master cr) (f.keys cr).serverKey (f.messages cr pub) (.finished ⟨f.clientVerify cr pub⟩))
      (readFinishedT .release (f'.master cr') (f'.keys cr').serverKey (f'.messages cr' pub') (.finished ⟨f'.clientVerify cr' pub'⟩))
      { fresh rd wr rng with rng := c.rng, writer := c.writer, reader := { s4 with iv := some (f.keys cr).serverIv } }
      { fresh rd' wr' rng' with rng := c'.rng, writer := c'.writer, reader := { s4' with iv := some (f'.keys cr').serverIv } } () () c c' ∧ Reader.Twin c.reader.reader c'.reader.reader := by
  obtain ⟨k1, k2, k3, k4⟩ := h.fit.keys_length h.len
  obtain ⟨k1', k2', k3', k4'⟩ := h'.fit.keys_length h'.len
  have hv : (f.serverVerify cr pub).length = 12 := (delivered_wf h.finished).1
  have hv' : (f'.serverVerify cr' pub').length = 12 := (delivered_wf h'.finished).1
  have c1 := (C105_verdict .release h.len h.fit ⟨f.serverVerify cr pub⟩ hv).trans (if_pos rfl)
  have c1' := (C105_verdict .release h'.len h'.fit ⟨f'.serverVerify cr' pub'⟩ hv').trans (if_pos rfl)
  have c2 := C105_check .release h.len h'.len h.fit h'.fit (by rw [hm]) ⟨f.serverVerify cr pub⟩ ⟨f'.serverVerify cr' pub'⟩ hv hv' ⟨fun _ => rfl, fun _ => rfl⟩
  have hc := h.change
  have hc' := h'.change
  have hF := h.finished
  have hF' := h'.finished
  have hW := h.whole
  have hW' := h'.whole
  clear h h'
  generalize f.serverVerify cr pub = v at *
  generalize f'.serverVerify cr' pub' = v' at *
  generalize (f.keys cr).serverKey = k at *
  generalize (f'.keys cr').serverKey = k' at *
  generalize (f.keys cr).serverIv = iv at *
  generalize (f'.keys cr').serverIv = iv' at *
  have L : Level { s4 with iv := some iv } { s4' with iv := some iv' } := ⟨hl.clear, hl.clear', hl.count, hl.buffer, hl.reader⟩
  obtain ⟨-, B1, L1, g1⟩ := Frames.both Frames.readChange readChangeCipherSpecT_agrees L (readChangeCipherSpec_ok hc) (readChangeCipherSpec_ok hc') (v := v4) (v1 := []) (z := t1.reader.stream)
    (z' := t1'.reader.stream) hs.at4 e4 rfl
  obtain ⟨B4, T⟩ := expectFinished_both k2 k2' k4 k4' hv hv' L1 (readMessage_same hc).2 (readMessage_same hc').2 hs.opened hs'.opened hpub hs.protFits hs.last hs'.last hs.finished hs'.finished hs.short hF hF'
  refine ⟨?_, T⟩
  have B := readFinished_both (c := { fresh rd wr rng with rng := c.rng, writer := c.writer, reader := { s4 with iv := some iv } })
    (c' := { fresh rd' wr' rng' with rng := c'.rng, writer := c'.writer, reader := { s4' with iv := some iv' } }) B1 L1.clear L1.clear' B4 (BothOk.ofTr c1 c1' c2 _ _)
  dsimp only at B
  dsimp only [fresh] at B hW hW' ⊢
  rw [← hW, ← hW'] at B
  exact B

end

end Husk
