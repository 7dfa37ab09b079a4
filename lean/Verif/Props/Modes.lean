import Verif.Proofs.Modes
import Verif.Proofs.Pair
import Verif.Props.SessionData
import Verif.Props.NoPanic
/-! C76: a release build does what a debug build does, wherever the debug build does not panic. -/

namespace Husk

open Res TlsClient

/-! ### Proofs -/

/-- `x` (debug) and `y` (release) agree from states related by `R`, unless `x` panics. -/
def Sim (R : σ → τ → Prop) (x : St σ α) (y : St τ α) : Prop := Pair R x y (fun a b s t => a = b ∧ R s t) R True

namespace Sim

variable {R : σ → τ → Prop}

theorem bind {x : St σ α} {y : St τ α} {f : α → St σ β} {g : α → St τ β} (h : Sim R x y) (hf : ∀ a, Sim R (f a) (g a)) : Sim R (x >>= f) (y >>= g) :=
  Pair.bind h fun a b => by
    rintro s t ⟨rfl, hs⟩
    exact hf a s t hs
theorem pure (a : α) : Sim R (Pure.pure a : St σ α) (Pure.pure a : St τ α) := Pair.pure fun _ _ h => ⟨rfl, h⟩
theorem err (k : TlsErrorKind) : Sim R (St.err k : St σ α) (St.err k : St τ α) := Pair.err fun _ _ h => h
theorem panic : Sim R (St.panic : St σ α) (St.panic : St τ α) := Pair.panic fun _ _ h => h
theorem lift (r : Res α) : Sim R (St.lift r : St σ α) (St.lift r : St τ α) := Pair.lift (fun _ _ _ _ h => ⟨rfl, h⟩) fun _ _ h => h
theorem lift_le {r r' : Res α} (h : Le r r') : Sim R (St.lift r : St σ α) (St.lift r' : St τ α) := by
  rcases h with rfl | rfl
  · exact fun _ _ _ => .free trivial
  · exact lift r
theorem ite {c : Prop} [Decidable c] {x x' : St σ α} {y y' : St τ α} (hx : Sim R x y) (hy : Sim R x' y') : Sim R (if c then x else x') (if c then y else y') := Pair.ite hx hy
theorem get_bind {f : σ → St σ α} {g : τ → St τ α} (h : ∀ s t, R s t → Sim R (f s) (g t)) : Sim R (St.get >>= f) (St.get >>= g) :=
  fun s t hs => h s t hs s t hs

end Sim

/-- Encryptors that agree unless the first panics. -/
def EncRel : Option Encryptor → Option Encryptor → Prop
  | none, none => True
  | some e, some e' => ∀ n d ad, Le (e.encrypt n d ad) (e'.encrypt n d ad)
  | _, _ => False

/-- Decryptors that agree unless the first panics. -/
def DecRel : Option Decryptor → Option Decryptor → Prop
  | none, none => True
  | some d, some d' => d.macLen = d'.macLen ∧ ∀ n c ad, Le (d.decrypt n c ad) (d'.decrypt n c ad)
  | _, _ => False

/-- Writers that differ only in their encryptors. -/
structure WriterRel (w v : TlsWriter) : Prop where
  writer : w.writer = v.writer
  enc : EncRel w.encryptor v.encryptor
  count : w.writeCount = v.writeCount
  iv : w.iv = v.iv
  calls : w.calls = v.calls

/-- Readers that differ only in their decryptors. -/
structure ReaderRel (s t : TlsReader) : Prop where
  reader : s.reader = t.reader
  dec : DecRel s.decryptor t.decryptor
  count : s.readCount = t.readCount
  buffer : s.handshakeBuffer = t.handshakeBuffer
  iv : s.iv = t.iv

/-- Clients that differ only in their encryptors and decryptors. -/
structure ClientRel (c d : TlsClient) : Prop where
  reader : ReaderRel c.reader d.reader
  writer : WriterRel c.writer d.writer
  rng : c.rng = d.rng
  buf : c.buf = d.buf

theorem EncRel.isNone {e e' : Option Encryptor} (h : EncRel e e') : e.isNone = e'.isNone := by
  cases e <;> cases e' <;> first | rfl | exact absurd h id
theorem DecRel.isNone {e e' : Option Decryptor} (h : DecRel e e') : e.isNone = e'.isNone := by
  cases e <;> cases e' <;> first | rfl | exact absurd h id

/-! #### Writing -/

namespace TlsWriter

theorem io_sim (x : St Writer α) : Sim WriterRel (TlsWriter.io x) (TlsWriter.io x) := by
  intro w v h
  simp only [TlsWriter.io, St.zoom_run]
  rw [h.writer]
  generalize x.run v.writer = r
  obtain ⟨r, u⟩ := r
  exact Agree.same (R := WriterRel) r ⟨rfl, h.enc, h.count, h.iv, h.calls⟩ (fun _ h => ⟨rfl, h⟩) fun h => h

theorem protect_sim (record : Record) : Sim WriterRel (protect record) (protect record) := by
  intro w v h
  have hn : w.nonce = v.nonce := by rw [nonce, nonce, h.iv, h.count]
  have ha : w.ad record = v.ad record := by rw [ad, ad, h.count]
  have he := h.enc
  unfold protect
  dsimp only
  cases e1 : w.encryptor with
  | none =>
    cases e2 : v.encryptor with
    | none => exact .ok ⟨rfl, h⟩
    | some e' => rw [e1, e2] at he; exact absurd he id
  | some e =>
    cases e2 : v.encryptor with
    | none => rw [e1, e2] at he; exact absurd he id
    | some e' =>
      rw [e1, e2] at he
      dsimp only
      rw [← hn, ← ha]
      rcases he w.nonce record.fragment (w.ad record) with h1 | h1
      · rw [h1]; exact .free trivial
      · rw [h1]
        cases e'.encrypt w.nonce record.fragment (w.ad record) with
        | ok c => exact .ok ⟨rfl, ⟨h.writer, he, h.count, h.iv, by dsimp only; rw [h.calls]⟩⟩
        | err k => exact .err h
        | panic => exact .free trivial
        | diverge => exact .diverge h

theorem bump_sim : Sim WriterRel (bump .debug) (bump .release) := by
  intro w v h
  unfold bump
  dsimp only
  rw [h.count]
  rcases addU64_le v.writeCount 1 with h1 | h1
  · rw [h1]; exact .free trivial
  · rw [h1]
    cases addU64 .release v.writeCount 1 with
    | ok n => exact .ok ⟨rfl, h.writer, h.enc, rfl, h.iv, h.calls⟩
    | err k => exact .err h
    | panic => exact .free trivial
    | diverge => exact .diverge h

theorem writeRecord_sim (record : Record) : Sim WriterRel (writeRecord .debug record) (writeRecord .release record) :=
  Sim.bind (protect_sim _) fun _ => Sim.ite Sim.panic (Sim.bind (io_sim _) fun _ => Sim.bind (io_sim _) fun _ => Sim.bind (io_sim _) fun _ =>
    Sim.bind (io_sim _) fun _ => Sim.bind (io_sim _) fun _ => bump_sim)

theorem writeChunks_sim (ty : ContentType) (cs : List Bytes) : Sim WriterRel (writeChunks .debug ty cs) (writeChunks .release ty cs) := by
  induction cs with
  | nil => exact Sim.pure _
  | cons c cs ih => exact Sim.bind (Sim.lift _) fun _ => Sim.bind (writeRecord_sim _) fun _ => ih

theorem writeData_sim (ty : ContentType) (data : Bytes) : Sim WriterRel (writeData .debug ty data) (writeData .release ty data) := writeChunks_sim _ _
theorem writeHandshake_sim (h : Handshake) : Sim WriterRel (writeHandshake .debug h) (writeHandshake .release h) := Sim.bind (Sim.lift _) fun _ => writeData_sim _ _
theorem writeAlert_sim (a : Alert) : Sim WriterRel (writeAlert .debug a) (writeAlert .release a) := Sim.bind (Sim.lift _) fun _ => writeData_sim _ _
theorem writeApplicationData_sim (data : Bytes) : Sim WriterRel (writeApplicationData .debug data) (writeApplicationData .release data) :=
  Sim.get_bind fun s t h => by
    rw [h.enc.isNone]
    exact Sim.ite Sim.panic (writeData_sim _ _)

theorem setIv_sim (iv : Bytes) : Sim WriterRel (TlsWriter.setIv iv) (TlsWriter.setIv iv) := by
  intro w v h
  unfold TlsWriter.setIv
  dsimp only
  rw [h.iv]
  cases v.iv with
  | none => exact .ok ⟨rfl, h.writer, h.enc, h.count, rfl, h.calls⟩
  | some _ => exact .panic h

theorem setEncryptor_sim (key : Bytes) : Sim WriterRel (TlsWriter.setEncryptor (.chacha .debug key)) (TlsWriter.setEncryptor (.chacha .release key)) := by
  intro w v h
  have he := h.enc
  unfold TlsWriter.setEncryptor
  dsimp only
  cases e1 : w.encryptor with
  | none =>
    cases e2 : v.encryptor with
    | none => exact .ok ⟨rfl, h.writer, fun n d ad => Aead.encrypt_le key n d ad, rfl, h.iv, h.calls⟩
    | some _ => rw [e1, e2] at he; exact absurd he id
  | some e =>
    cases e2 : v.encryptor with
    | none => rw [e1, e2] at he; exact absurd he id
    | some _ => exact .panic h

end TlsWriter

/-! #### Reading -/

namespace TlsReader

theorem io_sim (x : St Reader α) : Sim ReaderRel (TlsReader.io x) (TlsReader.io x) := by
  intro w v h
  simp only [TlsReader.io, St.zoom_run]
  rw [h.reader]
  generalize x.run v.reader = r
  obtain ⟨r, u⟩ := r
  exact Agree.same (R := ReaderRel) r ⟨rfl, h.dec, h.count, h.buffer, h.iv⟩ (fun _ h => ⟨rfl, h⟩) fun h => h

theorem onBuffer_sim (x : St HandshakeBuffer α) : Sim ReaderRel (onBuffer x) (onBuffer x) := by
  intro w v h
  simp only [onBuffer, St.zoom_run]
  rw [h.buffer]
  generalize x.run v.handshakeBuffer = r
  obtain ⟨r, u⟩ := r
  exact Agree.same (R := ReaderRel) r ⟨h.reader, h.dec, h.count, rfl, h.iv⟩ (fun _ h => ⟨rfl, h⟩) fun h => h

theorem bump_sim : Sim ReaderRel (bump .debug) (bump .release) := by
  intro w v h
  unfold bump
  dsimp only
  rw [h.count]
  rcases addU64_le v.readCount 1 with h1 | h1
  · rw [h1]; exact .free trivial
  · rw [h1]
    cases addU64 .release v.readCount 1 with
    | ok n => exact .ok ⟨rfl, h.reader, h.dec, rfl, h.buffer, h.iv⟩
    | err k => exact .err h
    | panic => exact .free trivial
    | diverge => exact .diverge h

theorem unprotect_le {s t : TlsReader} (h : ReaderRel s t) (ty : ContentType) (a b : UInt8) (f : Bytes) : Le (s.unprotect ty a b f) (t.unprotect ty a b f) := by
  have hn : s.nonce = t.nonce := by rw [nonce, nonce, h.iv, h.count]
  have ha : ∀ n, s.ad ty a b n = t.ad ty a b n := fun n => by rw [ad, ad, h.count]
  have hd := h.dec
  simp only [unprotect]
  cases e1 : s.decryptor with
  | none =>
    cases e2 : t.decryptor with
    | none => exact Le.refl _
    | some _ => rw [e1, e2] at hd; exact absurd hd id
  | some d =>
    cases e2 : t.decryptor with
    | none => rw [e1, e2] at hd; exact absurd hd id
    | some d' =>
      rw [e1, e2] at hd
      dsimp only
      rw [hd.1, hn, ha]
      exact Le.ite (Le.refl _) (Le.bind (hd.2 _ _ _) fun _ => Le.refl _)

theorem readRecord_sim : Sim ReaderRel (readRecord .debug) (readRecord .release) := by
  refine Sim.bind (io_sim _) fun ty => ?_
  cases ContentType.ofU8 ty with
  | none => exact Sim.err _
  | some ty =>
    exact Sim.bind (io_sim _) fun _ => Sim.bind (io_sim _) fun _ => Sim.bind (io_sim _) fun _ => Sim.ite (Sim.err _) (Sim.bind (io_sim _) fun _ =>
      Sim.get_bind fun s t h => Sim.bind (Sim.lift_le (unprotect_le h _ _ _ _)) fun _ => Sim.bind bump_sim fun _ => Sim.pure _)

theorem messageStep_sim : Sim ReaderRel (messageStep .debug) (messageStep .release) := by
  refine Sim.bind readRecord_sim fun r => ?_
  cases r.contentType with
  | ChangeCipherSpecTy => exact Sim.bind (Sim.lift _) fun _ => Sim.pure _
  | AlertTy => exact Sim.bind (Sim.lift _) fun _ => Sim.pure _
  | HandshakeTy =>
    refine Sim.ite (Sim.err _) (Sim.bind (onBuffer_sim _) fun _ => Sim.bind (onBuffer_sim _) fun h => ?_)
    cases h <;> exact Sim.pure _
  | ApplicationDataTy => exact Sim.pure _

theorem messageLoop_sim (fuel : Nat) : Sim ReaderRel (messageLoop .debug fuel) (messageLoop .release fuel) := by
  induction fuel with
  | zero => exact Sim.lift _
  | succ fuel ih =>
    refine Sim.bind messageStep_sim fun o => ?_
    cases o with
    | some msg => exact Sim.pure _
    | none => exact ih

theorem readMessage_sim : Sim ReaderRel (readMessage .debug) (readMessage .release) := by
  refine Sim.bind (onBuffer_sim _) fun o => ?_
  cases o with
  | some h => exact Sim.pure _
  | none => exact Sim.get_bind fun s t h => by rw [h.reader]; exact messageLoop_sim _

theorem readApplicationData_sim : Sim ReaderRel (readApplicationData .debug) (readApplicationData .release) :=
  Sim.get_bind fun s t h => by
    rw [h.dec.isNone]
    exact Sim.ite Sim.panic (Sim.bind readMessage_sim fun _ => Sim.lift _)

theorem readHandshake_sim : Sim ReaderRel (readHandshake .debug) (readHandshake .release) :=
  Sim.bind readMessage_sim fun msg => by cases msg <;> first | exact Sim.pure _ | exact Sim.err _

theorem readChangeCipherSpec_sim : Sim ReaderRel (readChangeCipherSpec .debug) (readChangeCipherSpec .release) :=
  Sim.bind readMessage_sim fun msg => by cases msg <;> first | exact Sim.pure _ | exact Sim.err _

theorem setIv_sim (iv : Bytes) : Sim ReaderRel (TlsReader.setIv iv) (TlsReader.setIv iv) := by
  intro w v h
  unfold TlsReader.setIv
  dsimp only
  rw [h.iv]
  cases v.iv with
  | none => exact .ok ⟨rfl, h.reader, h.dec, h.count, h.buffer, rfl⟩
  | some _ => exact .panic h

theorem setDecryptor_sim (key : Bytes) : Sim ReaderRel (TlsReader.setDecryptor (.chacha .debug key)) (TlsReader.setDecryptor (.chacha .release key)) := by
  intro w v h
  have he := h.dec
  unfold TlsReader.setDecryptor
  dsimp only
  cases e1 : w.decryptor with
  | none =>
    cases e2 : v.decryptor with
    | none => exact .ok ⟨rfl, h.reader, ⟨rfl, fun n d ad => Aead.decrypt_le key n d ad⟩, rfl, h.buffer, h.iv⟩
    | some _ => rw [e1, e2] at he; exact absurd he id
  | some e =>
    cases e2 : v.decryptor with
    | none => rw [e1, e2] at he; exact absurd he id
    | some _ => exact .panic h

end TlsReader

/-! #### The key exchange -/

theorem Ecdhe.randomLoop_sim (fuel : Nat) : Sim (@Eq Rng) (randomLoop .debug fuel) (randomLoop .release fuel) := by
  induction fuel with
  | zero => exact Sim.lift _
  | succ fuel ih =>
    refine Sim.bind ?_ fun x => Sim.bind (Sim.lift_le (Int256.reduceOnce_le x 0)) fun xx => Sim.ite (Sim.pure _) ih
    rintro s t rfl
    exact Agree.same (R := Eq) _ rfl (fun _ h => ⟨rfl, h⟩) fun h => h

theorem Ecdhe.computeKeys_sim (data : Bytes) : Sim (@Eq Rng) (computeKeys .debug data) (computeKeys .release data) := by
  refine Sim.bind (Sim.lift _) fun params => Sim.bind (Sim.lift_le (NPoint256.fromUncompressedBytes_le _)) fun gy => ?_
  cases gy with
  | none => exact Sim.err _
  | some gy =>
    refine Sim.bind ?_ fun x => Sim.lift_le (keysFrom_le _ _)
    exact Sim.get_bind fun s t h => by rw [h]; exact randomLoop_sim _

/-! #### The client -/

namespace TlsClient

theorem onReader_sim {x y : St TlsReader α} (h : Sim ReaderRel x y) : Sim ClientRel (onReader x) (onReader y) := by
  intro c d hc
  have h := h _ _ hc.reader
  simp only [onReader, St.zoom_run]
  generalize x.run c.reader = r at h ⊢
  generalize y.run d.reader = r' at h ⊢
  cases h with
  | ok h => exact .ok ⟨h.1, h.2, hc.writer, hc.rng, hc.buf⟩
  | err h => exact .err ⟨h, hc.writer, hc.rng, hc.buf⟩
  | panic h => exact .free trivial
  | diverge h => exact .diverge ⟨h, hc.writer, hc.rng, hc.buf⟩
  | free h => exact .free h

theorem onWriter_sim {x y : St TlsWriter α} (h : Sim WriterRel x y) : Sim ClientRel (onWriter x) (onWriter y) := by
  intro c d hc
  have h := h _ _ hc.writer
  simp only [onWriter, St.zoom_run]
  generalize x.run c.writer = r at h ⊢
  generalize y.run d.writer = r' at h ⊢
  cases h with
  | ok h => exact .ok ⟨h.1, hc.reader, h.2, hc.rng, hc.buf⟩
  | err h => exact .err ⟨hc.reader, h, hc.rng, hc.buf⟩
  | panic h => exact .free trivial
  | diverge h => exact .diverge ⟨hc.reader, h, hc.rng, hc.buf⟩
  | free h => exact .free h

theorem onRng_sim {x y : St Rng α} (h : Sim (@Eq Rng) x y) : Sim ClientRel (onRng x) (onRng y) := by
  intro c d hc
  have h := h _ _ hc.rng
  simp only [onRng, St.zoom_run]
  generalize x.run c.rng = r at h ⊢
  generalize y.run d.rng = r' at h ⊢
  cases h with
  | ok h => exact .ok ⟨h.1, hc.reader, hc.writer, h.2, hc.buf⟩
  | err h => exact .err ⟨hc.reader, hc.writer, h, hc.buf⟩
  | panic h => exact .free trivial
  | diverge h => exact .diverge ⟨hc.reader, hc.writer, h, hc.buf⟩
  | free h => exact .free h

theorem sendHello_sim : Sim ClientRel (sendHello .debug) (sendHello .release) := by
  refine Sim.bind (onRng_sim ?_) fun _ => Sim.bind (Sim.lift _) fun _ => Sim.bind (onWriter_sim (TlsWriter.writeHandshake_sim _)) fun _ => Sim.pure _
  rintro s t rfl
  exact Agree.same (R := Eq) _ rfl (fun _ h => ⟨rfl, h⟩) fun h => h

theorem expectServerHello_sim : Sim ReaderRel (expectServerHello .debug) (expectServerHello .release) :=
  Sim.bind TlsReader.readHandshake_sim fun h => by cases h <;> first | exact Sim.pure _ | exact Sim.err _
theorem expectCertificate_sim : Sim ReaderRel (expectCertificate .debug) (expectCertificate .release) :=
  Sim.bind TlsReader.readHandshake_sim fun h => by cases h <;> first | exact Sim.pure _ | exact Sim.err _
theorem expectServerKeyExchange_sim : Sim ReaderRel (expectServerKeyExchange .debug) (expectServerKeyExchange .release) :=
  Sim.bind TlsReader.readHandshake_sim fun h => by cases h <;> first | exact Sim.pure _ | exact Sim.err _
theorem expectServerHelloDone_sim : Sim ReaderRel (expectServerHelloDone .debug) (expectServerHelloDone .release) :=
  Sim.bind TlsReader.readHandshake_sim fun h => by cases h <;> first | exact Sim.pure _ | exact Sim.err _
theorem expectFinished_sim : Sim ReaderRel (expectFinished .debug) (expectFinished .release) :=
  Sim.bind TlsReader.readHandshake_sim fun h => by cases h <;> first | exact Sim.pure _ | exact Sim.err _

theorem readFlight_sim : Sim ClientRel (readFlight .debug) (readFlight .release) :=
  Sim.bind (onReader_sim expectServerHello_sim) fun _ => Sim.bind (Sim.lift _) fun _ => Sim.bind (onReader_sim expectCertificate_sim) fun _ =>
  Sim.bind (onReader_sim expectServerKeyExchange_sim) fun _ => Sim.bind (onRng_sim (Ecdhe.computeKeys_sim _)) fun _ => Sim.bind (onReader_sim expectServerHelloDone_sim) fun _ => Sim.pure _

theorem installKeys_sim (master cr sr : Bytes) : Sim ClientRel (installKeys .debug master cr sr) (installKeys .release master cr sr) :=
  Sim.bind (Sim.lift_le (Prf.new_le _ _)) fun _ => Sim.bind (Sim.lift_le (Prf.getBytes_le _ _)) fun _ => Sim.bind (onWriter_sim (TlsWriter.setEncryptor_sim _)) fun _ =>
  Sim.bind (Sim.lift_le (Prf.getBytes_le _ _)) fun _ => Sim.bind (Sim.lift_le (Prf.getBytes_le _ _)) fun _ => Sim.bind (Sim.lift_le (Prf.getBytes_le _ _)) fun _ =>
  Sim.bind (onWriter_sim (TlsWriter.setIv_sim _)) fun _ => Sim.bind (onReader_sim (TlsReader.setIv_sim _)) fun _ => Sim.pure _

theorem sendFinished_sim (cr : Bytes) (hello : Handshake) (f : ServerFlight) : Sim ClientRel (sendFinished .debug cr hello f) (sendFinished .release cr hello f) :=
  Sim.bind (Sim.lift _) fun _ => Sim.bind (onWriter_sim (TlsWriter.writeHandshake_sim _)) fun _ => Sim.bind (onWriter_sim (TlsWriter.writeData_sim _ _)) fun _ =>
  Sim.bind (Sim.lift_le (masterSecret_le _ _ _)) fun _ => Sim.bind (installKeys_sim _ _ _) fun _ => Sim.bind (Sim.lift _) fun _ =>
  Sim.bind (Sim.lift_le (verifyData_le _ _ _)) fun _ => Sim.bind (Sim.lift _) fun _ => Sim.bind (onWriter_sim (TlsWriter.writeHandshake_sim _)) fun _ => Sim.pure _

theorem readFinished_sim (master rk msgs : Bytes) (fin : Handshake) : Sim ClientRel (readFinished .debug master rk msgs fin) (readFinished .release master rk msgs fin) :=
  Sim.bind (onReader_sim TlsReader.readChangeCipherSpec_sim) fun _ => Sim.bind (onReader_sim (TlsReader.setDecryptor_sim _)) fun _ =>
  Sim.bind (onReader_sim expectFinished_sim) fun _ => Sim.lift_le (checkFinished_le _ _ _ _)

theorem handshake_sim : Sim ClientRel (TlsClient.handshake .debug) (TlsClient.handshake .release) :=
  Sim.bind sendHello_sim fun _ => Sim.bind readFlight_sim fun _ => Sim.bind (sendFinished_sim _ _ _) fun _ => readFinished_sim _ _ _ _

theorem sendTlsAlert_sim (k : TlsErrorKind) : Sim ClientRel (sendTlsAlert .debug k) (sendTlsAlert .release k) := by
  intro c d hc
  by_cases hk : k = .IoFailure
  · subst hk
    exact .ok ⟨rfl, hc⟩
  · have h := onWriter_sim (TlsWriter.writeAlert_sim (Alert.fromTlsErr k)) c d hc
    unfold sendTlsAlert
    dsimp only
    generalize (onWriter (TlsWriter.writeAlert .debug (Alert.fromTlsErr k))).run c = r at h ⊢
    generalize (onWriter (TlsWriter.writeAlert .release (Alert.fromTlsErr k))).run d = r' at h ⊢
    cases h with
    | ok h => cases k <;> first | exact absurd rfl hk | exact .ok ⟨rfl, h.2⟩
    | err h => cases k <;> first | exact absurd rfl hk | exact .ok ⟨rfl, h⟩
    | panic h => cases k <;> first | exact absurd rfl hk | exact .free trivial
    | diverge h => cases k <;> first | exact absurd rfl hk | exact .diverge h
    | free h => cases k <;> first | exact absurd rfl hk | exact .free h

theorem new_sim (rd : Reader) (wr : Writer) (rng : Rng) :
    Agree (fun a b c d => a = b ∧ ClientRel c d) ClientRel True (TlsClient.new .debug rd wr rng) (TlsClient.new .release rd wr rng) := by
  have h := handshake_sim { reader := TlsReader.new rd, writer := TlsWriter.new wr, rng } { reader := TlsReader.new rd, writer := TlsWriter.new wr, rng }
    ⟨⟨rfl, trivial, rfl, rfl, rfl⟩, ⟨rfl, trivial, rfl, rfl, rfl⟩, rfl, rfl⟩
  unfold TlsClient.new
  dsimp only
  generalize (TlsClient.handshake .debug).run _ = r at h ⊢
  generalize (TlsClient.handshake .release).run _ = r' at h ⊢
  cases h with
  | ok h => exact .ok h
  | err h => exact Sim.bind (sendTlsAlert_sim _) (fun _ => Sim.err _) _ _ h
  | panic h => exact .panic h
  | diverge h => exact .diverge h
  | free h => exact .free h

theorem writeAll_sim (buf : Bytes) : Sim ClientRel (TlsClient.writeAll .debug buf) (TlsClient.writeAll .release buf) := by
  intro c d hc
  have h := onWriter_sim (TlsWriter.writeApplicationData_sim buf) c d hc
  unfold TlsClient.writeAll
  dsimp only
  generalize (onWriter (TlsWriter.writeApplicationData .debug buf)).run c = r at h ⊢
  generalize (onWriter (TlsWriter.writeApplicationData .release buf)).run d = r' at h ⊢
  cases h with
  | ok h => exact .ok h
  | err h => exact Sim.bind (sendTlsAlert_sim _) (fun _ => Sim.err _) _ _ h
  | panic h => exact .panic h
  | diverge h => exact .diverge h
  | free h => exact .free h

theorem write_sim (buf : Bytes) : Sim ClientRel (TlsClient.write .debug buf) (TlsClient.write .release buf) := Sim.bind (writeAll_sim buf) fun _ => Sim.pure _

theorem refill_sim : Sim ClientRel (refill .debug) (refill .release) := by
  intro c d hc
  unfold refill
  dsimp only
  rw [hc.buf]
  split
  · have h := onReader_sim TlsReader.readApplicationData_sim c d hc
    generalize (onReader (TlsReader.readApplicationData .debug)).run c = r at h ⊢
    generalize (onReader (TlsReader.readApplicationData .release)).run d = r' at h ⊢
    cases h with
    | ok h => exact .ok ⟨rfl, h.2.reader, h.2.writer, h.2.rng, by dsimp only; rw [h.1, h.2.buf]⟩
    | err h => exact .ok ⟨rfl, h⟩
    | panic h => exact .panic h
    | diverge h => exact .diverge h
    | free h => exact .free h
  · exact .ok ⟨rfl, hc⟩

theorem readLoop_sim (fuel rem : Nat) (acc : Bytes) : Sim ClientRel (readLoop .debug fuel rem acc) (readLoop .release fuel rem acc) := by
  induction fuel generalizing rem acc with
  | zero =>
    rw [readLoop.eq_def, readLoop.eq_def]
    exact Sim.ite (Sim.pure _) (Sim.lift _)
  | succ fuel ih =>
    rw [readLoop.eq_def, readLoop.eq_def]
    refine Sim.ite (Sim.pure _) (Sim.bind refill_sim fun b => ?_)
    cases b with
    | false => exact Sim.pure _
    | true =>
      refine Sim.get_bind fun c d h => ?_
      dsimp only
      rw [h.buf]
      refine Sim.bind ?_ fun _ => ih _ _
      intro c' d' h'
      exact .ok ⟨rfl, h'.reader, h'.writer, h'.rng, by dsimp only; rw [h'.buf]⟩

theorem read_sim (len : Nat) : Sim ClientRel (TlsClient.read .debug len) (TlsClient.read .release len) :=
  Sim.get_bind fun c d h => by rw [h.reader.reader]; exact readLoop_sim _ _ _

end TlsClient

/-- The result of a call is a panic. -/
def CallResult.Panicked : CallResult → Prop
  | .read r => r = .panic
  | .write r => r = .panic
  | .done r => r = .panic

theorem Call.run_sim (call : Call) {c d : TlsClient} (h : ClientRel c d) :
    (call.run .debug c).1.Panicked ∨ ((call.run .debug c).1 = (call.run .release d).1 ∧ ClientRel (call.run .debug c).2 (call.run .release d).2) := by
  have key : ∀ {α : Type} {r : Res α × TlsClient} {r' : Res α × TlsClient} (_ : Agree (fun a b c d => a = b ∧ ClientRel c d) ClientRel True r r'),
      r.1 = .panic ∨ (r.1 = r'.1 ∧ ClientRel r.2 r'.2) := by
    intro α r r' h
    cases h with
    | ok h => exact Or.inr ⟨by rw [h.1], h.2⟩
    | err h => exact Or.inr ⟨rfl, h⟩
    | panic h => exact Or.inl rfl
    | diverge h => exact Or.inr ⟨rfl, h⟩
    | free _ => exact Or.inl rfl
  cases call with
  | read len => exact (key (read_sim len c d h)).imp id fun h => ⟨congrArg CallResult.read h.1, h.2⟩
  | write buf => exact (key (write_sim buf c d h)).imp id fun h => ⟨congrArg CallResult.write h.1, h.2⟩
  | flush => exact Or.inr ⟨rfl, h⟩
  | close => exact (key (onWriter_sim (TlsWriter.writeAlert_sim _) c d h)).imp id fun h => ⟨congrArg CallResult.done h.1, h.2⟩

theorem runCalls_sim (calls : List Call) {c d : TlsClient} (h : ClientRel c d) (hp : ∀ r ∈ (runCalls .debug calls c).1, ¬ r.Panicked) :
    (runCalls .debug calls c).1 = (runCalls .release calls d).1 ∧ ClientRel (runCalls .debug calls c).2 (runCalls .release calls d).2 := by
  induction calls generalizing c d with
  | nil => exact ⟨rfl, h⟩
  | cons call calls ih =>
    rcases call.run_sim h with h1 | ⟨h1, h2⟩
    · exact absurd h1 (hp _ (List.mem_cons_self ..))
    · obtain ⟨h3, h4⟩ := ih h2 fun r hr => hp r (List.mem_cons_of_mem _ hr)
      exact ⟨by rw [runCalls, runCalls, h1, h3], h4⟩

/-! ### C76 -/

/-- C76: given the same incoming events, randomness and write failures: if `TlsClient::new` does not panic in a debug build, it returns the same in a release build and
has sent the same bytes; and if none of a history of calls after it panics in a debug build, all return the same in a release build and the same bytes are sent. -/
theorem C76_release_as_debug (rd : Reader) (wr : Writer) (rng : Rng) (h : (TlsClient.new .debug rd wr rng).1 ≠ .panic) :
    (TlsClient.new .release rd wr rng).1 = (TlsClient.new .debug rd wr rng).1 ∧
    (TlsClient.new .release rd wr rng).2.writer.writer = (TlsClient.new .debug rd wr rng).2.writer.writer ∧
    ∀ calls, (∀ r ∈ (runCalls .debug calls (TlsClient.new .debug rd wr rng).2).1, ¬ r.Panicked) →
      (runCalls .release calls (TlsClient.new .release rd wr rng).2).1 = (runCalls .debug calls (TlsClient.new .debug rd wr rng).2).1 ∧
      (runCalls .release calls (TlsClient.new .release rd wr rng).2).2.writer.writer = (runCalls .debug calls (TlsClient.new .debug rd wr rng).2).2.writer.writer := by
  have hn := new_sim rd wr rng
  generalize TlsClient.new .debug rd wr rng = r at h hn ⊢
  generalize TlsClient.new .release rd wr rng = r' at h hn ⊢
  have key : r'.1 = r.1 ∧ ClientRel r.2 r'.2 := by
    cases hn with
    | ok hq => exact ⟨by rw [hq.1], hq.2⟩
    | err hq => exact ⟨rfl, hq⟩
    | panic hq => exact ⟨rfl, hq⟩
    | diverge hq => exact ⟨rfl, hq⟩
    | free _ => exact absurd rfl h
  refine ⟨key.1, key.2.writer.writer.symm, fun calls hp => ?_⟩
  obtain ⟨h1, h2⟩ := runCalls_sim calls key.2 hp
  exact ⟨h1.symm, h2.writer.writer.symm⟩

/-- The hypotheses are met: a debug build completes a handshake, and writing, closing and flushing after it does not panic. -/
example : ∃ rd wr rng, (TlsClient.new .debug rd wr rng).1 ≠ .panic ∧
    ∀ r ∈ (runCalls .debug [.write [1, 2, 3], .close, .flush] (TlsClient.new .debug rd wr rng).2).1, ¬ r.Panicked := by
  obtain ⟨rd, wr, rng, c, h, hf, -⟩ := session_exists .debug
  obtain ⟨_, _, _, _, _, _, _, _, -, -, h3⟩ := C67_wire .debug rd wr rng hf c h [.write [1, 2, 3], .close, .flush] (by decide)
  refine ⟨rd, wr, rng, by rw [h]; simp, ?_⟩
  rw [h]
  dsimp only
  generalize (runCalls .debug [.write [1, 2, 3], .close, .flush] c).1 = rs at h3 ⊢
  cases h3 with
  | cons h1 h3 =>
    cases h3 with
    | cons h2 h3 =>
      cases h3 with
      | cons h3 h4 =>
        cases h4
        intro r hr
        simp only [List.mem_cons, List.not_mem_nil, or_false] at hr
        rcases hr with rfl | rfl | rfl
        · rw [h1 _ rfl]; simp [CallResult.Panicked]
        · rw [h2 _ rfl]; simp [CallResult.Panicked]
        · rw [h3 _ rfl]; simp [CallResult.Panicked]

open Item Spec TlsReader in
/-- The hypothesis is needed: there is a server that makes a debug build panic and not a release build. -/
theorem C76_hypothesis_needed : ∃ rd wr rng, (TlsClient.new .debug rd wr rng).1 = .panic ∧ (TlsClient.new .release rd wr rng).1 ≠ .panic := by
  let V : ServerValues := { random := List.replicate 32 7, secret := 1 }
  have hV : V.Conforms := ⟨by simp [V], by simp [V], by simp [V], by simp [V], by decide, by rw [one_nsmul]; exact Spec.P256.G_ne_zero, by simp [V]⟩
  have D : Draws (List.replicate 32 0 ++ (5 :: List.replicate 31 0)) (List.replicate 32 0) (5 :: List.replicate 31 0) [] :=
    ⟨⟨[], by simp, by simp⟩, by simp, by simp, by decide⟩
  obtain ⟨b, hb⟩ : ∃ b, b = V.first 2 ++ (handshakeBytes 12 ([3] ++ beBytes 2 23 ++ (65 :: (4 :: (beBytes 32 (2 ^ 256 - 1) ++ beBytes 32 0))) ++ [4, 1] ++ beBytes 2 ([] : Bytes).length ++ []) ++ []) := ⟨_, rfl⟩
  have hl : 0 < b.length ∧ b.length ≤ 1000 := by
    rw [hb]
    simp [ServerValues.first, ServerValues.messages, serverHelloBytes, certificateBytes, handshakeBytes, extPart, V]
  have hc : Cuts [b] b := ⟨fun f hf => by
    rw [List.mem_singleton.mp hf]
    refine ⟨?_, ?_⟩
    · intro h
      rw [h] at hl
      simp at hl
    · have := hl.2
      norm_num
      omega, by simp, by simp⟩
  refine ⟨byteByByte (recordBytes 22 3 3 b), {}, ⟨_⟩, C61_debug_panics _ {} ⟨_⟩ rfl D hV (2 ^ 256 - 1) 0 (by decide) (by decide) [] [] (by simp) [b] (by rw [← hb]; exact hc) [] ?_, ?_⟩
  · rw [stream_byteByByte]
    simp
  · have hr : (recordBytes 22 3 3 b).length ≤ 16400 := by
      simp [recordBytes]
      omega
    refine C61_short_records_partial .release _ {} _ ?_ ?_ (by intro h; cases h)
    · rw [stream_byteByByte]
      have : ∀ x : Bytes, countBytes (ofBytes x) = x.length := fun x => by
        induction x with
        | nil => rfl
        | cons x b ih => exact congrArg (· + 1) ih
      rw [this]
      omega
    · intro p l ty a c f h
      rw [stream_byteByByte] at h
      have := append_record h
      omega

end Husk
