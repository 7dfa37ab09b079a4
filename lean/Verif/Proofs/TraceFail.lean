import Verif.Model.TraceNew
import Verif.Proofs.TraceSuccess
/-! `TlsClient::new` with its alert: the computation with observations has the results of the model, and two runs on the same incoming bytes, step by step (C114). -/

namespace Husk

open TSt Spec TlsReader TlsClient

/-! ### The results are those of the model -/

namespace TlsClient

variable {m : Mode}

/-- `orAlertT` without observations. -/
def orAlert (m : Mode) (x : St TlsClient α) : St TlsClient α := ⟨fun c =>
  match x.run c with
  | (.err k, c) => (sendTlsAlert m k >>= fun k' => St.err k').run c
  | (r, c) => (r, c)⟩

theorem orAlert_ok {x : St TlsClient α} {c c' : TlsClient} {a : α} (h : x.run c = (.ok a, c')) : (orAlert m x).run c = (.ok a, c') := by
  simp only [orAlert, h]

/-- Reporting an error gives no value. -/
theorem orAlert_value {x : St TlsClient α} {c c' : TlsClient} {a : α} (h : (orAlert m x).run c = (.ok a, c')) : x.run c = (.ok a, c') := by
  unfold orAlert at h
  dsimp only at h
  rcases hx : x.run c with ⟨r, d⟩
  rw [hx] at h
  cases r with
  | ok b => exact h
  | panic => cases h
  | diverge => cases h
  | err k =>
    exfalso
    have h : (sendTlsAlert m k >>= fun k' => (St.err k' : St TlsClient α)).run d = (.ok a, c') := h
    obtain ⟨k', d', -, g⟩ := St.bind_eq_ok h
    cases g

/-- The same for what comes after. -/
theorem report_bind (k : TlsErrorKind) (f : α → St TlsClient β) (c : TlsClient) :
    ((sendTlsAlert m k >>= fun k' => (St.err k' : St TlsClient α)) >>= f).run c = (sendTlsAlert m k >>= fun k' => (St.err k' : St TlsClient β)).run c := by
  rw [St.bind_run, St.bind_run, St.bind_run]
  rcases (sendTlsAlert m k).run c with ⟨r, c'⟩
  cases r <;> rfl

theorem orAlert_bind (x : St TlsClient α) (f : α → St TlsClient β) (c : TlsClient) : (orAlert m (x >>= f)).run c = (orAlert m x >>= fun a => orAlert m (f a)).run c := by
  rcases hx : x.run c with ⟨r, c'⟩
  cases r with
  | ok a =>
    rw [St.bind_of_ok (orAlert_ok hx)]
    simp only [orAlert, St.bind_of_ok hx]
  | err k =>
    have e : (orAlert m x).run c = (sendTlsAlert m k >>= fun k' => (St.err k' : St TlsClient α)).run c' := by simp only [orAlert, hx]
    have e' : (orAlert m (x >>= f)).run c = (sendTlsAlert m k >>= fun k' => (St.err k' : St TlsClient β)).run c' := by simp only [orAlert, St.bind_of_err hx]
    rw [e', ← report_bind k (fun a => orAlert m (f a)), St.bind_run _ _ c', St.bind_run _ _ c, e]
  | panic => simp only [orAlert, St.bind_run, hx]
  | diverge => simp only [orAlert, St.bind_run, hx]

theorem new_orAlert (m : Mode) (rd : Reader) (wr : Writer) (rng : Rng) : TlsClient.new m rd wr rng = (orAlert m (handshake m)).run (fresh rd wr rng) := by
  rw [new_run]
  unfold orAlert
  dsimp only
  rcases (handshake m).run (fresh rd wr rng) with ⟨r, c⟩
  cases r <;> rfl

theorem sendTlsAlertT_follows (key : Option Bytes) (k : TlsErrorKind) (c : TlsClient) (h : k = .IoFailure ∨ c.writer.HasKey m key) :
    ((sendTlsAlertT m key k).run c).2 = (sendTlsAlert m k).run c := by
  rcases h with rfl | h
  · rfl
  by_cases hk : k = .IoFailure
  · subst hk; rfl
  · have e : ((onWriterT (TlsWriter.writeAlertT m key (Alert.fromTlsErr k))).run c).2 = (onWriter (TlsWriter.writeAlert m (Alert.fromTlsErr k))).run c := ((Agrees.zoom (TlsWriter.writeAlertT_agrees (m := m) (key := key) (Alert.fromTlsErr k)) (fun _ h => h) fun _ _ _ h => h :
      Agrees (fun c : TlsClient => c.writer.HasKey m key) (onWriterT _) (onWriter _)) c h).1
    have e1 : (sendTlsAlert m k).run c = match (onWriter (TlsWriter.writeAlert m (Alert.fromTlsErr k))).run c with
      | (.ok (), c) => (.ok k, c)
      | (.err k', c) => (.ok k', c)
      | (.panic, c) => (.panic, c)
      | (.diverge, c) => (.diverge, c) := by cases k <;> first | exact absurd rfl hk | rfl
    rw [e1, sendTlsAlertT_run key hk, ← e]
    rcases (onWriterT (TlsWriter.writeAlertT m key (Alert.fromTlsErr k))).run c with ⟨t, r, c'⟩
    cases r <;> rfl

theorem orAlertT_follows {key : Option Bytes} {x : TSt TlsClient α} {y : St TlsClient α} {c : TlsClient} (h : (x.run c).2 = y.run c)
    (hk : ∀ k c', y.run c = (.err k, c') → k = .IoFailure ∨ c'.writer.HasKey m key) : ((orAlertT m key x).run c).2 = (orAlert m y).run c := by
  unfold orAlertT orAlert
  dsimp only
  rcases hx : x.run c with ⟨t, r, c'⟩
  rw [hx] at h
  have h : (r, c') = y.run c := h
  rw [← h]
  cases r with
  | ok a => rfl
  | panic => rfl
  | diverge => rfl
  | err k =>
    show ((sendTlsAlertT m key k >>= fun k' => (quiet (St.err k') : TSt TlsClient α)).run c').2 = _
    exact follows (sendTlsAlertT_follows key k c' (hk k c' h.symm)) fun _ _ _ => rfl

/-- The parts of the handshake that read leave the writer alone. -/
theorem onReader_writer (x : St TlsReader α) (c : TlsClient) : ((onReader x).run c).2.writer = c.writer := rfl

theorem bind_writer {x : St TlsClient α} {f : α → St TlsClient β} (hx : ∀ c, (x.run c).2.writer = c.writer) (hf : ∀ a c, ((f a).run c).2.writer = c.writer) (c : TlsClient) :
    ((x >>= f).run c).2.writer = c.writer := by
  rw [St.bind_run]
  have h := hx c
  rcases he : x.run c with ⟨r, c'⟩
  rw [he] at h
  cases r with
  | ok a => exact (hf a c').trans h
  | err k => exact h
  | panic => exact h
  | diverge => exact h

theorem readFlight_writer (m : Mode) (c : TlsClient) : ((readFlight m).run c).2.writer = c.writer := by
  refine bind_writer (fun _ => rfl) (fun _ => bind_writer (fun _ => rfl) fun _ => bind_writer (fun _ => rfl) fun _ => bind_writer (fun _ => rfl) fun _ => bind_writer (fun _ => rfl) fun _ =>
    bind_writer (fun _ => rfl) fun _ _ => rfl) c

theorem readFinished_writer (m : Mode) (a b d : Bytes) (e : Handshake) (c : TlsClient) : ((readFinished m a b d e).run c).2.writer = c.writer := by
  refine bind_writer (fun _ => rfl) (fun _ => bind_writer (fun _ => rfl) fun _ => bind_writer (fun _ => rfl) fun _ _ => rfl) c

theorem clientKeyOf_eq {cr pub : Bytes} {f : ServerFlight} (hc : cr.length = 32) (hf : FlightFit f pub) (m : Mode) :
    clientKeyOf m (f.master cr) cr f.hello.random.data = some (f.keys cr).clientKey := by
  have e := expandT_res m (f.master cr) cr f.hello.random.data (by rw [hf.master_length hc]; decide) hc hf.random
  unfold clientKeyOf
  rw [e]
  rfl

theorem newWholeT_follows (m : Mode) (rd : Reader) (wr : Writer) (rng : Rng) : (newWholeT m rd wr rng).2 = TlsClient.new m rd wr rng := by
  have hfr := fresh_fresh rd wr rng
  rw [new_orAlert]
  unfold handshake
  rw [orAlert_bind]
  have hcases := sendHello_cases m (fresh rd wr rng) hfr.encryptor hfr.count
  refine follows (s := fresh rd wr rng) (orAlertT_follows (sendHelloT_follows m _ hfr.encryptor) ?_) fun hello c1 h1 => ?_
  · intro k c' h
    rcases hcases with ⟨g1, -⟩ | ⟨cr, rest, hr, hl, ⟨w1, g1, g2⟩ | ⟨w1, n, g1, -⟩⟩
    · rw [g1] at h; cases h
    · rw [g1] at h; cases h
    · rw [g1] at h; cases h; exact Or.inl rfl
  rcases hcases with ⟨g1, -⟩ | ⟨cr, rest, hr, hl, ⟨w1, g1, g2⟩ | ⟨w1, n, g1, -⟩⟩
  · simp only [orAlert, g1] at h1; cases h1
  rotate_left
  · simp only [orAlert, g1] at h1; cases h1
  rw [orAlert_ok g1] at h1
  cases h1
  have hw1 : w1.encryptor = none := g2.encryptor.trans hfr.encryptor
  have hn1 : w1.writeCount = 1 := by rw [g2.count, hfr.count]; rfl
  dsimp only
  rw [orAlert_bind]
  refine follows (orAlertT_follows (readFlightT_agrees _ (by rfl)).1 ?_) fun f c2 h2 => ?_
  · intro k c' h
    have := readFlight_writer m { fresh rd wr rng with rng := ⟨rest⟩, writer := w1 }
    rw [h] at this
    right
    show c'.writer.encryptor = none
    rw [show c'.writer = w1 from this, hw1]
  have h2' := orAlert_value h2
  obtain ⟨s1, s2, s3, s4, rng', hR, rfl⟩ := readFlight_inv h2'
  obtain ⟨X, Y, hfit, _⟩ := hR.fit
  rw [orAlert_bind]
  have hfin := sendFinished_cases m cr f _ hl hfit { fresh rd wr rng with rng := rng', writer := w1, reader := s4 } hw1 (g2.iv.trans hfr.writerIv) (hR.same.2.trans hfr.readerIv)
    (by show w1.writeCount.toNat ≤ 1; rw [hn1]; decide)
  refine follows (orAlertT_follows (C105_same_result m hl hfit hw1 (g2.iv.trans hfr.writerIv) (hR.same.2.trans hfr.readerIv) [] [] (helloMessage cr) ⟨[]⟩).1 ?_) fun sent c3 h3 => ?_
  · intro k c' h
    rcases hfin with ⟨w', k1, -⟩ | ⟨c', n, k1, -⟩
    · cases h.symm.trans k1
    · cases h.symm.trans k1; exact Or.inl rfl
  have h3' := orAlert_value h3
  rcases hfin with ⟨w', k1, -, k2, -⟩ | ⟨c', n, k1, -⟩
  rotate_left
  · cases h3'.symm.trans k1
  cases h3'.symm.trans k1
  dsimp only
  rw [clientKeyOf_eq hl hfit]
  have last : ∀ (x : TSt TlsClient Unit) (c : TlsClient), ((x >>= fun _ => TSt.see (.branch true)).run c).2 = (x.run c).2 := by
    intro x c
    rw [TSt.bind_run]
    rcases x.run c with ⟨t, r, c'⟩
    cases r <;> rfl
  rw [last]
  refine orAlertT_follows (readFinishedT_follows m _ _ _ _ _ hR.same.1) fun k c' h => ?_
  have hw := readFinished_writer m (f.master cr) (f.keys cr).serverKey (f.messages cr (4 :: (beBytes 32 X ++ beBytes 32 Y))) (.finished ⟨f.clientVerify cr (4 :: (beBytes 32 X ++ beBytes 32 Y))⟩)
    { fresh rd wr rng with rng := rng', writer := w', reader := { s4 with iv := some (f.keys cr).serverIv } }
  rw [h] at hw
  right
  show c'.writer.encryptor = _
  rw [show c'.writer = w' from hw, k2]
  rfl

end TlsClient

end Husk
