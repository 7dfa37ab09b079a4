import Verif.Proofs.TraceClient
import Verif.Proofs.TraceLeak
/-! # C105: what the handshake's handling of its secrets shows through timing and caches

The client's second flight (ClientKeyExchange, ChangeCipherSpec, master secret, key expansion, Finished) and the check of the server's Finished, with the observations of
`Verif/Base/Trace` and the calls on the transport. Two runs are compared that differ in the premaster secret, the randoms, the client's key, the contents of the server's messages and everything derived from
these. (How the premaster secret is computed is C85 and C88.) -/

namespace Husk

open TSt
open Int256 (SameLen)
open Spec

/-- Two clients before their second flights: nothing is protected yet, and the transports will treat the coming writes alike. -/
structure BeforeKeys (c c' : TlsClient) : Prop where
  writer : TlsWriter.ClearTwin c.writer c'.writer
  iv : c.reader.iv = none
  iv' : c'.reader.iv = none

namespace TlsClient

variable {m : Mode}

theorem onWriterT_before {R : α → β → Prop} {x : TSt TlsWriter α} {y : TSt TlsWriter β} (h : Alike TlsWriter.ClearTwin R x y) :
    Alike BeforeKeys R (onWriterT x) (onWriterT y) := Alike.zoom h (fun _ _ h => h.writer) fun _ _ _ _ h h' => { h with writer := h' }

/-- The step of two runs, when `Q` is wanted of the clients at the end. -/
theorem step {P Q : σ → τ → Prop} {R : α → β → Prop} {S : γ → δ → Prop} {x : TSt σ α} {y : TSt τ β} {f : α → TSt σ γ} {g : β → TSt τ δ} {s : σ} {t : τ} (hq : ∀ s t, P s t → Q s t)
    (h : Alike P R x y) (hp : P s t) (hf : ∀ a b s' t', R a b → P s' t' → AlikeAt Q S (f a) (g b) s' t') : AlikeAt Q S (x >>= f) (y >>= g) s t := by
  obtain ⟨h1, h2, h3⟩ := h s t hp
  unfold AlikeAt
  rw [bind_run, bind_run]
  rcases hx : x.run s with ⟨u, r, s'⟩
  rcases hy : y.run t with ⟨u', r', t'⟩
  rw [hx, hy] at h1 h2 h3
  have h1 : u = u' := h1
  subst h1
  cases r <;> cases r' <;> first | exact absurd h2 id | skip
  · rename_i a b
    obtain ⟨g1, g2, g3⟩ := hf a b s' t' h2 h3
    exact ⟨congrArg (u ++ ·) g1, g2, g3⟩
  · exact ⟨rfl, h2, hq _ _ h3⟩
  · exact ⟨rfl, trivial, hq _ _ h3⟩
  · exact ⟨rfl, trivial, hq _ _ h3⟩

/-- A step of a call with observations, beside the call without. -/
theorem follows {x : TSt σ α} {y : St σ α} {f : α → TSt σ β} {g : α → St σ β} {s : σ} (h : (x.run s).2 = y.run s)
    (hf : ∀ a s', y.run s = (.ok a, s') → ((f a).run s').2 = (g a).run s') : ((x >>= f).run s).2 = (y >>= g).run s := by
  rw [bind_run, St.bind_run]
  rcases hx : x.run s with ⟨t, r, s'⟩
  rw [hx] at h
  have h : (r, s') = y.run s := h
  rw [← h]
  cases r with
  | ok a => exact hf a s' h.symm
  | err k => rfl
  | panic => rfl
  | diverge => rfl

end TlsClient

open TlsClient

theorem messages_len {cr cr' pub pub' : Bytes} {f f' : ServerFlight} (hc : cr.length = 32) (hc' : cr'.length = 32) (hf : FlightFit f pub) (hf' : FlightFit f' pub')
    (hs : (serverMessages f).length = (serverMessages f').length) : SameLen (f.messages cr pub) (f'.messages cr' pub') := by
  show (handshakeMessages cr (serverMessages f) pub).length = (handshakeMessages cr' (serverMessages f') pub').length
  obtain ⟨_, _, l2⟩ := clientKeyExchange_eq pub hf.point
  obtain ⟨_, _, l2'⟩ := clientKeyExchange_eq pub' hf'.point
  obtain ⟨_, _, a⟩ := clientHello_eq cr hc
  obtain ⟨_, _, a'⟩ := clientHello_eq cr' hc'
  simp only [handshakeMessages, List.length_append, a, a', l2, l2', hs]

theorem serverVerify_eq {f : ServerFlight} {pub cr : Bytes} (hf : FlightFit f pub) (hc : cr.length = 32) (m : Mode) :
    TlsItem.write (Handshake.finished ⟨f.clientVerify cr pub⟩) = .ok (finishedBytes (f.clientVerify cr pub)) ∧ (finishedBytes (f.clientVerify cr pub)).length = 16 ∧
      verifyData m (f.master cr) serverFinishedLabel (f.messages cr pub ++ finishedBytes (f.clientVerify cr pub)) = .ok (f.serverVerify cr pub) ∧ (f.serverVerify cr pub).length = 12 := by
  obtain ⟨_, l3⟩ := hf.clientVerify hc m
  obtain ⟨_, e4, l4⟩ := finished_eq _ l3
  have hlen : (f.messages cr pub ++ finishedBytes (f.clientVerify cr pub)).length < 2 ^ 61 := by
    have := hf.len
    obtain ⟨_, _, l1⟩ := clientHello_eq cr hc
    obtain ⟨_, _, l6⟩ := clientKeyExchange_eq pub hf.point
    simp only [ServerFlight.messages, handshakeMessages, List.length_append, l1, l4, l6]
    omega
  obtain ⟨v1, v2⟩ := verifyData_eq m (f.master cr) serverFinishedLabel _ (by rw [hf.master_length hc]; decide) (by decide) hlen
  rw [serverFinishedLabel_eq] at v1 v2
  refine ⟨e4, l4, ?_, v2⟩
  rw [serverFinishedLabel_eq]
  exact v1

/-- Two second flights; the transports will treat the coming writes alike again. -/
theorem second_flight_alike (m : Mode) {cr cr' pub pub' : Bytes} {f f' : ServerFlight} {c c' : TlsClient} (hc : cr.length = 32) (hc' : cr'.length = 32) (hf : FlightFit f pub)
    (hf' : FlightFit f' pub') (hp : f.preMasterSecret.length = f'.preMasterSecret.length) (hs : (serverMessages f).length = (serverMessages f').length) (h : BeforeKeys c c') :
    AlikeAt (fun c c' => Writer.Twin c.writer.writer c'.writer.writer) (fun _ _ => True) (sendFinishedT m cr (helloMessage cr) f) (sendFinishedT m cr' (helloMessage cr') f') c c' := by
  obtain ⟨e1, e2, l2⟩ := clientKeyExchange_eq pub hf.point
  obtain ⟨e1', e2', l2'⟩ := clientKeyExchange_eq pub' hf'.point
  obtain ⟨t1, t2⟩ := transcript_eq cr f pub hc hf
  obtain ⟨t1', t2'⟩ := transcript_eq cr' f' pub' hc' hf'
  obtain ⟨k1, k2, k3, k4⟩ := hf.keys_length hc
  obtain ⟨k1', k2', k3', k4'⟩ := hf'.keys_length hc'
  obtain ⟨v1, v2⟩ := hf.clientVerify hc m
  obtain ⟨v1', v2'⟩ := hf'.clientVerify hc' m
  obtain ⟨n1, n2, n3⟩ := finished_eq _ v2
  obtain ⟨n1', n2', n3'⟩ := finished_eq _ v2'
  have hm := hf.master_length hc
  have hm' := hf'.master_length hc'
  have hml : SameLen (f.master cr) (f'.master cr') := hm.trans hm'.symm
  have hg : SameLen (f.messages cr pub) (f'.messages cr' pub') := messages_len hc hc' hf hf' hs
  have m1 : (masterSecretT m f.preMasterSecret cr f.hello.random.data).res = .ok (f.master cr) := (masterSecretT_res _ _ _ _).trans (masterSecret_eq m _ _ _ hf.pms hc hf.random)
  have m1' : (masterSecretT m f'.preMasterSecret cr' f'.hello.random.data).res = .ok (f'.master cr') :=
    (masterSecretT_res _ _ _ _).trans (masterSecret_eq m _ _ _ hf'.pms hc' hf'.random)
  have m2 := (masterSecretT_same m _ _ _ _ _ _ hp (hc.trans hc'.symm) (hf.random.trans hf'.random.symm) _ _ m1 m1').1
  have x2 := (expandT_same m _ _ _ _ _ _ hml (hc.trans hc'.symm) (hf.random.trans hf'.random.symm) _ _
    (expandT_res m (f.master cr) cr f.hello.random.data (by omega) hc hf.random) (expandT_res m (f'.master cr') cr' f'.hello.random.data (by omega) hc' hf'.random)).1
  have w1 : (verifyDataT m (f.master cr) clientFinishedLabel (f.messages cr pub)).res = .ok (f.clientVerify cr pub) := (verifyDataT_res _ _ _ _).trans v1
  have w1' : (verifyDataT m (f'.master cr') clientFinishedLabel (f'.messages cr' pub')).res = .ok (f'.clientVerify cr' pub') := (verifyDataT_res _ _ _ _).trans v1'
  have w2 := (verifyDataT_same m _ _ _ _ _ _ hml rfl hg _ _ w1 w1').1
  unfold sendFinishedT
  rw [hf.key, hf'.key]
  refine BothOk.bind (BothOk.quiet (s' := c) (t' := c') (by rw [e1]; rfl) (by rw [e1']; rfl)) ?_
  refine step (fun _ _ h => h.writer.writer) (onWriterT_before (TlsWriter.writeHandshakeT_clear ⟨_, _, e2, e2', by rw [l2, l2']⟩)) h fun _ _ c1 c1' _ h1 => ?_
  refine step (fun _ _ h => h.writer.writer) (onWriterT_before (TlsWriter.writeChunksT_clear (m := m) .ChangeCipherSpecTy _ _ rfl)) h1 fun _ _ c2 c2' _ h2 => ?_
  refine BothOk.bind (BothOk.ofTr m1 m1' m2 c2 c2') ?_
  refine BothOk.bind (a := ((f.keys cr).clientKey, (f.keys cr).serverKey)) (b := ((f'.keys cr').clientKey, (f'.keys cr').serverKey)) (s' := withKeys m (f.keys cr) c2)
    (t' := withKeys m (f'.keys cr') c2')
    ⟨_, installKeysT_run m _ _ _ (by omega) hc hf.random c2 h2.writer.key h2.writer.iv h2.iv, by
      rw [x2]; exact installKeysT_run m _ _ _ (by omega) hc' hf'.random c2' h2.writer.key' h2.writer.iv' h2.iv'⟩ ?_
  refine BothOk.bind (BothOk.quiet (by rw [t1]; rfl) (by rw [t1']; rfl)) ?_
  refine step (P := fun s s' => s = withKeys m (f.keys cr) c2 ∧ s' = withKeys m (f'.keys cr') c2') (fun _ _ h => by rw [h.1, h.2]; exact h2.writer.writer) (Alike.see (congrArg _ hg)) ⟨rfl, rfl⟩ fun _ _ s s' _ hk => ?_
  rw [hk.1, hk.2]
  refine BothOk.bind (BothOk.ofTr w1 w1' w2 _ _) ?_
  refine BothOk.bind (BothOk.quiet (by rw [n1]; rfl) (by rw [n1']; rfl)) ?_
  refine step (P := fun s s' => TlsWriter.Twin m (f.keys cr).clientKey (f'.keys cr').clientKey s.writer s'.writer) (R := fun _ _ => True) (fun _ _ h => h.writer)
    (Alike.zoom (TlsWriter.writeHandshakeT_alike ⟨_, _, n2, n2', by rw [n3, n3']⟩) (fun _ _ h => h) fun _ _ _ _ _ h => h) ?_ fun _ _ _ _ _ h => ⟨rfl, trivial, h.writer⟩
  exact { key := rfl, key' := rfl, len := k1, len' := k1', iv := ⟨_, _, rfl, rfl, k3, k3'⟩, count := rfl, writer := h2.writer.writer }

/-- C105, the client's second flight: the observations depend on the lengths alone, whatever becomes of the writes, in both build modes. -/
theorem C105_second_flight (m : Mode) {cr cr' pub pub' : Bytes} {f f' : ServerFlight} {c c' : TlsClient} (hc : cr.length = 32) (hc' : cr'.length = 32) (hf : FlightFit f pub)
    (hf' : FlightFit f' pub') (hp : f.preMasterSecret.length = f'.preMasterSecret.length) (hs : (serverMessages f).length = (serverMessages f').length) (h : BeforeKeys c c') :
    ((sendFinishedT m cr (helloMessage cr) f).run c).1 = ((sendFinishedT m cr' (helloMessage cr') f').run c').1 ∧
      SameOutcome (fun _ _ => True) ((sendFinishedT m cr (helloMessage cr) f).run c).2.1 ((sendFinishedT m cr' (helloMessage cr') f').run c').2.1 :=
  ⟨(second_flight_alike m hc hc' hf hf' hp hs h).1, (second_flight_alike m hc hc' hf hf' hp hs h).2.1⟩

/-- C105, the check of the server's Finished: the observations depend on the lengths and on the verdict. -/
theorem C105_check (m : Mode) {cr cr' pub pub' : Bytes} {f f' : ServerFlight} (hc : cr.length = 32) (hc' : cr'.length = 32) (hf : FlightFit f pub) (hf' : FlightFit f' pub')
    (hs : (serverMessages f).length = (serverMessages f').length) (vd vd' : VerifyData) (hv : vd.data.length = 12) (hv' : vd'.data.length = 12)
    (hverdict : vd.data = f.serverVerify cr pub ↔ vd'.data = f'.serverVerify cr' pub') :
    (checkFinishedT m (f.master cr) (f.messages cr pub) (.finished ⟨f.clientVerify cr pub⟩) vd).trace =
      (checkFinishedT m (f'.master cr') (f'.messages cr' pub') (.finished ⟨f'.clientVerify cr' pub'⟩) vd').trace := by
  have hm := hf.master_length hc
  have hm' := hf'.master_length hc'
  have hg : SameLen (f.messages cr pub) (f'.messages cr' pub') := messages_len hc hc' hf hf' hs
  obtain ⟨e4, l4, v1, v2⟩ := serverVerify_eq hf hc m
  obtain ⟨e4', l4', v1', v2'⟩ := serverVerify_eq hf' hc' m
  have w1 := (verifyDataT_res m (f.master cr) serverFinishedLabel _).trans v1
  have w1' := (verifyDataT_res m (f'.master cr') serverFinishedLabel _).trans v1'
  have w2 := (verifyDataT_same m _ _ _ _ _ _ (hm.trans hm'.symm) rfl (by simp only [SameLen, List.length_append] at *; omega) _ _ w1 w1').1
  have c1 := (Util.cryptoCompareT_res m vd.data (f.serverVerify cr pub)).trans (C43_crypto_compare_is_equality m _ _ (hv.trans v2.symm))
  have c1' := (Util.cryptoCompareT_res m vd'.data (f'.serverVerify cr' pub')).trans (C43_crypto_compare_is_equality m _ _ (hv'.trans v2'.symm))
  have c2 := (Util.cryptoCompareT_same m _ _ _ _ (hv.trans hv'.symm) (v2.trans v2'.symm) _ _ c1 c1').1
  have hd : decide (vd.data = f.serverVerify cr pub) = decide (vd'.data = f'.serverVerify cr' pub') := decide_eq_decide.mpr hverdict
  have key : ∀ {f : ServerFlight} {cr pub : Bytes} {vd : VerifyData} {b : Bytes}, TlsItem.write (Handshake.finished ⟨f.clientVerify cr pub⟩) = .ok b →
      (verifyDataT m (f.master cr) serverFinishedLabel (f.messages cr pub ++ b)).res = .ok (f.serverVerify cr pub) →
      (Util.cryptoCompareT m vd.data (f.serverVerify cr pub)).res = .ok (decide (vd.data = f.serverVerify cr pub)) →
      (checkFinishedT m (f.master cr) (f.messages cr pub) (.finished ⟨f.clientVerify cr pub⟩) vd).trace = [Obs.size (f.messages cr pub).length] ++ ([] ++ ([Obs.size b.length] ++
        ((verifyDataT m (f.master cr) serverFinishedLabel (f.messages cr pub ++ b)).trace ++ ((Util.cryptoCompareT m vd.data (f.serverVerify cr pub)).trace ++
          [Obs.branch (decide (vd.data = f.serverVerify cr pub))])))) := by
    intro f cr pub vd b h1 h2 h3
    rw [checkFinishedT, bind_trace_ok _ (Tr.see_res _), bind_trace_ok _ ((Tr.lift_res _).trans h1), bind_trace_ok _ (Tr.see_res _), bind_trace_ok _ h2, bind_trace_ok _ h3,
      bind_trace_ok _ (Tr.test_res _)]
    by_cases he : vd.data = f.serverVerify cr pub
    · rw [decide_eq_true he]; rfl
    · rw [decide_eq_false he]; rfl
  rw [key e4 w1 c1, key e4' w1' c1', w2, c2, hd, show (f.messages cr pub).length = (f'.messages cr' pub').length from hg, l4, l4']

/-- The computations with observations have the results of the model. -/
theorem C105_same_result (m : Mode) {cr pub : Bytes} {f : ServerFlight} {c : TlsClient} (hc : cr.length = 32) (hf : FlightFit f pub) (h1 : c.writer.encryptor = none)
    (h2 : c.writer.iv = none) (h3 : c.reader.iv = none) (master msgs : Bytes) (fin : Handshake) (vd : VerifyData) :
    ((sendFinishedT m cr (helloMessage cr) f).run c).2 = (sendFinished m cr (helloMessage cr) f).run c ∧
      (checkFinishedT m master msgs fin vd).res = checkFinished m master msgs fin vd := by
  refine ⟨?_, checkFinishedT_res _ _ _ _ _⟩
  obtain ⟨e1, e2, l2⟩ := clientKeyExchange_eq pub hf.point
  obtain ⟨t1, t2⟩ := transcript_eq cr f pub hc hf
  obtain ⟨v1, v2⟩ := hf.clientVerify hc m
  obtain ⟨n1, n2, n3⟩ := finished_eq _ v2
  have hm := hf.master_length hc
  have m1 : masterSecret m f.preMasterSecret cr f.hello.random.data = .ok (f.master cr) := masterSecret_eq m _ _ _ hf.pms hc hf.random
  have hb : BeforeKeys c c := ⟨⟨h1, h1, h2, h2, rfl, rfl, rfl⟩, h3, h3⟩
  have on : ∀ {key : Option Bytes} {x : TSt TlsWriter Unit} {y : St TlsWriter Unit}, Agrees (TlsWriter.HasKey m key) x y →
      Agrees (fun c : TlsClient => c.writer.HasKey m key) (onWriterT x) (onWriter y) := fun h => Agrees.zoom h (fun _ h => h) fun _ _ _ h => h
  unfold sendFinishedT sendFinished
  rw [hf.key]
  refine follows (by rw [e1]; rfl) fun cke c0 h0 => ?_
  rw [e1] at h0
  cases h0
  have a1 := on (TlsWriter.writeHandshakeT_agrees (m := m) (key := none) (.client_key_exchange ⟨65 :: pub⟩)) c h1
  have b1 := (onWriterT_before (TlsWriter.writeHandshakeT_clear (m := m) ⟨_, _, e2, e2, rfl⟩) c c hb).2.2
  refine follows a1.1 fun _ c1 h0 => ?_
  rw [a1.1, h0] at b1
  have b1 : BeforeKeys c1 c1 := b1
  have a2 := on (x := TlsWriter.writeChangeCipherSpecT m none) (y := TlsWriter.writeChangeCipherSpec m)
    (TlsWriter.writeChunksT_agrees (m := m) (key := none) .ChangeCipherSpecTy (chunks RECORD_MAX_LEN [1])) c1 b1.writer.key
  have b2 := (onWriterT_before (x := TlsWriter.writeChangeCipherSpecT m none) (y := TlsWriter.writeChangeCipherSpecT m none) (TlsWriter.writeChunksT_clear (m := m) .ChangeCipherSpecTy (chunks RECORD_MAX_LEN [1]) _ rfl) c1 c1 b1).2.2
  refine follows a2.1 fun _ c2 h0 => ?_
  rw [a2.1, h0] at b2
  have b2 : BeforeKeys c2 c2 := b2
  refine follows (by show ((masterSecretT _ _ _ _).res, c2) = _; rw [masterSecretT_res]; rfl) fun master c3 h0 => ?_
  rw [m1] at h0
  cases h0
  have i1 := installKeysT_run m (f.master cr) cr f.hello.random.data (by omega) hc hf.random c2 b2.writer.key b2.writer.iv b2.iv
  have i2 := installKeys_eq m (f.master cr) cr f.hello.random.data (by omega) hc hf.random c2 b2.writer.key b2.writer.iv b2.iv
  show (TSt.run (installKeysT m (f.master cr) cr f.hello.random.data >>= _) c2).2 = (installKeys m (f.master cr) cr f.hello.random.data >>= _).run c2
  rw [TSt.bind_of_ok i1, St.bind_of_ok i2]
  dsimp only
  refine follows rfl fun msgs c4 h0 => ?_
  rw [t1] at h0
  cases h0
  show (TSt.run (TSt.ofTr _ >>= _) _).2 = _
  refine follows (by show ((verifyDataT _ _ _ _).res, _) = _; rw [verifyDataT_res]; rfl) fun v c5 h0 => ?_
  rw [show verifyData m (f.master cr) clientFinishedLabel (handshakeMessages cr (serverMessages f) pub) = .ok (f.clientVerify cr pub) from v1] at h0
  cases h0
  refine follows rfl fun fin c6 h0 => ?_
  rw [n1] at h0
  cases h0
  exact follows (on (TlsWriter.writeHandshakeT_agrees (m := m) (key := some (f.keys cr).clientKey) (.finished ⟨f.clientVerify cr pub⟩)) (withKeys m (f.keys cr) c2) (by rfl)).1 fun _ c7 h0 => rfl

/-! ### A case -/

/-- A flight with the given key data and premaster secret. -/
def sampleFlight (pub pms : Bytes) : ServerFlight where
  hello := { serverVersion := ⟨3, 3⟩, random := ⟨List.replicate 32 9⟩, sessionId := ⟨[]⟩, cipherSuite := suite, compressionMethod := .null, extensions := none }
  certs := ⟨[]⟩
  ske := ⟨[1, 2, 3]⟩
  keyData := 65 :: pub
  preMasterSecret := pms

theorem sampleFlight_fit (pub pms : Bytes) (h : pub.length = 65) (hp : pms.length = 32) : FlightFit (sampleFlight pub pms) pub :=
  ⟨rfl, by simp [sampleFlight], rfl, h, by rw [sampleFlight, hp]; decide, by
    show (serverMessages (sampleFlight [] [])).length < 2 ^ 60
    decide +kernel⟩

/-- Two clients with nothing in common but the lengths. -/
example (m : Mode) (pub pub' pms pms' cr cr' : Bytes) (h1 : pub.length = 65) (h2 : pub'.length = 65) (h3 : pms.length = 32) (h4 : pms'.length = 32) (h5 : cr.length = 32)
    (h6 : cr'.length = 32) (r r' : Reader) (fs : List (Option Nat)) :
    ((sendFinishedT m cr (helloMessage cr) (sampleFlight pub pms)).run { reader := TlsReader.new r, writer := TlsWriter.new { faults := fs }, rng := ⟨[]⟩ }).1 =
      ((sendFinishedT m cr' (helloMessage cr') (sampleFlight pub' pms')).run { reader := TlsReader.new r', writer := TlsWriter.new { faults := fs }, rng := ⟨[]⟩ }).1 :=
  (C105_second_flight m h5 h6 (sampleFlight_fit pub pms h1 h3) (sampleFlight_fit pub' pms' h2 h4) (h3.trans h4.symm) rfl
    (c := { reader := TlsReader.new r, writer := TlsWriter.new { faults := fs }, rng := ⟨[]⟩ }) (c' := { reader := TlsReader.new r', writer := TlsWriter.new { faults := fs }, rng := ⟨[]⟩ })
    ⟨⟨rfl, rfl, rfl, rfl, rfl, rfl, rfl⟩, rfl, rfl⟩).1

/-- The verdict that is shown: whether the value is the one of the specification. -/
theorem C105_verdict (m : Mode) {cr pub : Bytes} {f : ServerFlight} (hc : cr.length = 32) (hf : FlightFit f pub) (vd : VerifyData) (hv : vd.data.length = 12) :
    (checkFinishedT m (f.master cr) (f.messages cr pub) (.finished ⟨f.clientVerify cr pub⟩) vd).res = if vd.data = f.serverVerify cr pub then .ok () else .err .DecryptError :=
  (checkFinishedT_res _ _ _ _ _).trans (checkFinished_eq hf hc m vd hv)

end Husk
