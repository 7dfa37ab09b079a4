import Verif.Props.ClientHandshake
/-! A transport that begins to fail later behaves, until then, as one that never fails. -/

namespace Husk

open Item Spec TlsClient

/-- A state with a transport for writing in it. -/
class Faulty (σ : Type) where
  faults : σ → List (Option Nat)
  setFaults : σ → List (Option Nat) → σ
  set_set : ∀ s f g, setFaults (setFaults s f) g = setFaults s g
  faults_set : ∀ s f, faults (setFaults s f) = f
  set_faults : ∀ s, setFaults s (faults s) = s

instance : Faulty Writer := ⟨(·.faults), fun s f => { s with faults := f }, fun _ _ _ => rfl, fun _ _ => rfl, fun _ => rfl⟩
instance : Faulty TlsWriter := ⟨(·.writer.faults), fun s f => { s with writer := { s.writer with faults := f } }, fun _ _ _ => rfl, fun _ _ => rfl, fun _ => rfl⟩
instance : Faulty TlsClient := ⟨(·.writer.writer.faults), fun s f => { s with writer := { s.writer with writer := { s.writer.writer with faults := f } } }, fun _ _ _ => rfl, fun _ _ => rfl, fun _ => rfl⟩

open Faulty

/-- The computation makes a number `k` of calls of `write_all` when the transport does not fail, and the same when only later calls fail. -/
def Calm [Faulty σ] (x : St σ α) : Prop :=
  ∀ s, faults s = [] → faults (x.run s).2 = [] ∧ ∃ k, ∀ F, x.run (setFaults s (List.replicate k none ++ F)) = ((x.run s).1, setFaults (x.run s).2 F)

section
variable {σ : Type} [Faulty σ]

theorem Calm.lift (r : Res α) : Calm (St.lift r : St σ α) := fun _ h => ⟨h, 0, fun _ => rfl⟩
theorem Calm.pure (a : α) : Calm (Pure.pure a : St σ α) := fun _ h => ⟨h, 0, fun _ => rfl⟩
theorem Calm.err (k : TlsErrorKind) : Calm (St.err k : St σ α) := fun _ h => ⟨h, 0, fun _ => rfl⟩
theorem Calm.panic : Calm (St.panic : St σ α) := fun _ h => ⟨h, 0, fun _ => rfl⟩

/-- A step that neither uses nor changes the transport. -/
theorem Calm.other {x : St σ α} (h : ∀ s F, x.run (setFaults s F) = ((x.run s).1, setFaults (x.run s).2 F)) (hf : ∀ s, faults (x.run s).2 = faults s) : Calm x :=
  fun s hs => ⟨(hf s).trans hs, 0, fun F => h s F⟩

theorem Calm.bind {x : St σ α} {f : α → St σ β} (hx : Calm x) (hf : ∀ a, Calm (f a)) : Calm (x >>= f) := by
  intro s hs
  obtain ⟨h1, k1, h2⟩ := hx s hs
  rw [St.bind_run]
  rcases hr : x.run s with ⟨r, s1⟩
  rw [hr] at h1 h2
  cases r with
  | ok a =>
    obtain ⟨h3, k2, h4⟩ := hf a s1 h1
    refine ⟨h3, k1 + k2, fun F => ?_⟩
    rw [St.bind_run, List.replicate_add, List.append_assoc, h2]
    exact h4 F
  | err k => exact ⟨h1, k1, fun F => by rw [St.bind_run, h2]⟩
  | panic => exact ⟨h1, k1, fun F => by rw [St.bind_run, h2]⟩
  | diverge => exact ⟨h1, k1, fun F => by rw [St.bind_run, h2]⟩

end

theorem writerWriteAll_calm (b : Bytes) : Calm (Writer.writeAll b) := by
  intro s hs
  have hs : s.faults = [] := hs
  by_cases hb : b = []
  · subst hb
    exact ⟨hs, 0, fun F => rfl⟩
  · have h1 : (Writer.writeAll b).run s = (.ok (), { s with wire := s.wire ++ b }) := by simp only [Writer.writeAll, if_neg hb, hs]
    rw [h1]
    refine ⟨hs, 1, fun F => ?_⟩
    simp only [Writer.writeAll, if_neg hb]
    rfl

theorem io_calm {x : St Writer α} (h : Calm x) : Calm (TlsWriter.io x) := by
  intro s hs
  obtain ⟨h1, k, h2⟩ := h s.writer hs
  refine ⟨h1, k, fun F => ?_⟩
  have h2 := h2 F
  have h3 := congrArg Prod.fst h2
  exact Prod.ext h3 (congrArg (fun p : Res α × Writer => { s with writer := p.2 }) h2)

theorem onWriter_calm {x : St TlsWriter α} (h : Calm x) : Calm (onWriter x) := by
  intro s hs
  obtain ⟨h1, k, h2⟩ := h s.writer hs
  refine ⟨h1, k, fun F => ?_⟩
  have h2 := h2 F
  have h3 := congrArg Prod.fst h2
  exact Prod.ext h3 (congrArg (fun p : Res α × TlsWriter => { s with writer := p.2 }) h2)

theorem onReader_calm (x : St TlsReader α) : Calm (onReader x) := .other (fun _ _ => rfl) fun _ => rfl
theorem onRng_calm (x : St Rng α) : Calm (onRng x) := .other (fun _ _ => rfl) fun _ => rfl

theorem setEncryptor_calm (e : Encryptor) : Calm (TlsWriter.setEncryptor e) := by
  refine .other (fun s F => ?_) fun s => ?_
  · rcases s with ⟨w, _ | e', n, i, l⟩ <;> rfl
  · rcases s with ⟨w, _ | e', n, i, l⟩ <;> rfl

theorem setIv_calm (iv : Bytes) : Calm (TlsWriter.setIv iv) := by
  refine .other (fun s F => ?_) fun s => ?_
  · rcases s with ⟨w, e, n, _ | i, l⟩ <;> rfl
  · rcases s with ⟨w, e, n, _ | i, l⟩ <;> rfl

theorem protect_calm (record : Record) : Calm (TlsWriter.protect record) := by
  refine .other (fun s F => ?_) fun s => ?_
  · have e1 : (setFaults s F : TlsWriter).nonce = s.nonce := rfl
    have e2 : (setFaults s F : TlsWriter).ad record = s.ad record := rfl
    have e3 : (setFaults s F : TlsWriter).encryptor = s.encryptor := rfl
    simp only [TlsWriter.protect, e1, e2, e3]
    cases s.encryptor with
    | none => rfl
    | some e =>
      dsimp only
      cases e.encrypt s.nonce record.fragment (s.ad record) <;> rfl
  · simp only [TlsWriter.protect]
    cases s.encryptor with
    | none => rfl
    | some e =>
      dsimp only
      cases e.encrypt s.nonce record.fragment (s.ad record) <;> rfl

theorem bump_calm (m : Mode) : Calm (TlsWriter.bump m) := by
  refine .other (fun s F => ?_) fun s => ?_
  · have e1 : (setFaults s F : TlsWriter).writeCount = s.writeCount := rfl
    simp only [TlsWriter.bump, e1]
    cases addU64 m s.writeCount 1 <;> rfl
  · simp only [TlsWriter.bump]
    cases addU64 m s.writeCount 1 <;> rfl

theorem writeRecord_calm (m : Mode) (record : Record) : Calm (TlsWriter.writeRecord m record) := by
  refine .bind (protect_calm record) fun c => ?_
  split
  · exact .panic
  · exact .bind (io_calm (writerWriteAll_calm _)) fun _ => .bind (io_calm (writerWriteAll_calm _)) fun _ => .bind (io_calm (writerWriteAll_calm _)) fun _ =>
      .bind (io_calm (writerWriteAll_calm _)) fun _ => .bind (io_calm (writerWriteAll_calm _)) fun _ => bump_calm m

theorem writeChunks_calm (m : Mode) (ty : ContentType) (cs : List Bytes) : Calm (TlsWriter.writeChunks m ty cs) := by
  induction cs with
  | nil => exact .pure ()
  | cons c cs ih => exact .bind (.lift _) fun r => .bind (writeRecord_calm m r) fun _ => ih

theorem writeHandshake_calm (m : Mode) (h : Handshake) : Calm (TlsWriter.writeHandshake m h) := .bind (.lift _) fun _ => writeChunks_calm m _ _
theorem writeAlert_calm (m : Mode) (a : Alert) : Calm (TlsWriter.writeAlert m a) := .bind (.lift _) fun _ => writeChunks_calm m _ _

theorem sendHello_calm (m : Mode) : Calm (sendHello m) :=
  .bind (onRng_calm _) fun _ => .bind (.lift _) fun h => .bind (onWriter_calm (writeHandshake_calm m h)) fun _ => .pure _

theorem readFlight_calm (m : Mode) : Calm (readFlight m) :=
  .bind (onReader_calm _) fun _ => .bind (.lift _) fun _ => .bind (onReader_calm _) fun _ => .bind (onReader_calm _) fun _ =>
    .bind (onRng_calm _) fun _ => .bind (onReader_calm _) fun _ => .pure _

theorem installKeys_calm (m : Mode) (a b c : Bytes) : Calm (installKeys m a b c) :=
  .bind (.lift _) fun _ => .bind (.lift _) fun _ => .bind (onWriter_calm (setEncryptor_calm _)) fun _ => .bind (.lift _) fun _ => .bind (.lift _) fun _ => .bind (.lift _) fun _ =>
    .bind (onWriter_calm (setIv_calm _)) fun _ => .bind (onReader_calm _) fun _ => .pure _

theorem sendFinished_calm (m : Mode) (a : Bytes) (h : Handshake) (f : ServerFlight) : Calm (sendFinished m a h f) :=
  .bind (.lift _) fun _ => .bind (onWriter_calm (writeHandshake_calm m _)) fun _ => .bind (onWriter_calm (writeChunks_calm m _ _)) fun _ => .bind (.lift _) fun _ =>
    .bind (installKeys_calm m _ _ _) fun _ => .bind (.lift _) fun _ => .bind (.lift _) fun _ => .bind (.lift _) fun _ =>
    .bind (onWriter_calm (writeHandshake_calm m _)) fun _ => .pure _

theorem readFinished_calm (m : Mode) (a b c : Bytes) (h : Handshake) : Calm (readFinished m a b c h) :=
  .bind (onReader_calm _) fun _ => .bind (onReader_calm _) fun _ => .bind (onReader_calm _) fun _ => .lift _

theorem handshake_calm (m : Mode) : Calm (handshake m) :=
  .bind (sendHello_calm m) fun _ => .bind (readFlight_calm m) fun _ => .bind (sendFinished_calm m _ _ _) fun _ => readFinished_calm m _ _ _ _

/-- A successful handshake over a transport without faults is as successful, with the same result, over one that fails only later. -/
theorem new_later_faults (m : Mode) (rd : Reader) (wr : Writer) (rng : Rng) (hfa : wr.faults = []) (c : TlsClient) (h : TlsClient.new m rd wr rng = (.ok (), c)) :
    ∃ k, ∀ F, TlsClient.new m rd { wr with faults := List.replicate k none ++ F } rng =
      (.ok (), { c with writer := { c.writer with writer := { c.writer.writer with faults := F } } }) := by
  rw [new_of_handshake _ _ _ _ _ _ (by simp)] at h
  obtain ⟨-, k, h2⟩ := handshake_calm m (fresh rd wr rng) hfa
  refine ⟨k, fun F => ?_⟩
  rw [new_of_handshake _ _ _ _ _ _ (by simp)]
  have := h2 F
  rw [h] at this
  exact this

end Husk
