import Verif.Proofs.Pair
import Verif.Props.Chunking
import Verif.Props.Forgery
/-! C75: are the version bytes in the header of received records looked at? -/

namespace Husk

open Item Spec TlsReader TlsClient

/-! ### Specification -/

/-- A record whose version is not that of TLS 1.2 is not accepted, whatever the state of the connection and whatever follows. -/
def VersionChecked (m : Mode) : Prop :=
  ∀ (s : TlsReader) (ty : ContentType) (a b : UInt8) (f : Bytes) (l : List Sym), (a, b) ≠ (3, 3) → s.reader.stream = ofBytes (recordBytes ty.toU8 a b f) ++ l →
    ∀ r, ((readRecord m).run s).1 ≠ .ok r

/-- Two streams that begin with the same records up to and including at most one ChangeCipherSpec, with other version bytes, and then go on in the same way. -/
inductive VersionsAltered : List Sym → List Sym → Prop
  | last {ty : ContentType} {a b a' b' : UInt8} {f : Bytes} {l : List Sym} : f.length ≤ 2 ^ 14 + 2048 →
      VersionsAltered (ofBytes (recordBytes ty.toU8 a b f) ++ l) (ofBytes (recordBytes ty.toU8 a' b' f) ++ l)
  | cons {ty : ContentType} {a b a' b' : UInt8} {f : Bytes} {l l' : List Sym} : f.length ≤ 2 ^ 14 + 2048 → ty ≠ .ChangeCipherSpecTy → VersionsAltered l l' →
      VersionsAltered (ofBytes (recordBytes ty.toU8 a b f) ++ l) (ofBytes (recordBytes ty.toU8 a' b' f) ++ l')

/-! ### Proofs -/

theorem countBytes_ofBytes (b : Bytes) : countBytes (ofBytes b) = b.length := by
  induction b with
  | nil => rfl
  | cons x b ih => exact congrArg (· + 1) ih

theorem VersionsAltered.count {l l' : List Sym} (h : VersionsAltered l l') : countBytes l = countBytes l' := by
  induction h with
  | last _ => simp [countBytes_append, countBytes_ofBytes, recordBytes]
  | cons _ _ _ ih => simp [countBytes_append, countBytes_ofBytes, recordBytes, ih]

namespace TlsReader

/-- Readers before protection starts, whose streams differ only in version bytes. -/
structure VerRel (s t : TlsReader) : Prop where
  plainS : s.decryptor = none
  plainT : t.decryptor = none
  count : s.readCount = t.readCount
  buffer : s.handshakeBuffer = t.handshakeBuffer
  iv : s.iv = t.iv
  streams : VersionsAltered s.reader.stream t.reader.stream

/-- The same, or differing in version bytes. -/
def Near (s t : TlsReader) : Prop := Same s t ∨ VerRel s t

/-- After a ChangeCipherSpec the streams are the same. -/
def After (ccs : Prop) (s t : TlsReader) : Prop := Near s t ∧ (ccs → Same s t)

theorem After.of_same {ccs : Prop} {s t : TlsReader} (h : Same s t) : After ccs s t := ⟨Or.inl h, fun _ => h⟩

/-- The arms of `messageStep`. -/
def messageOf (ty : ContentType) (f : Bytes) : St TlsReader (Option Message) :=
  match ty with
  | .ChangeCipherSpecTy => do
    let msg ← St.lift (ccsMessage f)
    return some msg
  | .AlertTy => do
    let msg ← St.lift (alertMessage f)
    return some msg
  | .HandshakeTy =>
    if f.isEmpty then St.err .UnexpectedMessage
    else do
      onBuffer (HandshakeBuffer.addRecord f)
      let msg ← onBuffer HandshakeBuffer.getMessage
      match msg with
      | some h => return some (.HandshakeMessage h)
      | none => return none
  | .ApplicationDataTy => return some (.ApplicationDataMessage f)

theorem messageStep_eq (m : Mode) : messageStep m = readRecord m >>= fun r => messageOf r.contentType r.fragment := rfl

theorem onBuffer_near (x : St HandshakeBuffer α) : Pair Near (onBuffer x) (onBuffer x) (fun a b s t => a = b ∧ Near s t) (fun _ _ => True) False := by
  intro s t h
  have hb : s.handshakeBuffer = t.handshakeBuffer := by
    rcases h with h | h
    · exact h.2.2.2.1
    · exact h.buffer
  simp only [onBuffer, St.zoom_run]
  rw [hb]
  generalize x.run t.handshakeBuffer = r
  obtain ⟨r, u⟩ := r
  refine Agree.same (R := Near) r ?_ (fun _ h => ⟨rfl, h⟩) fun _ => trivial
  rcases h with h | h
  · exact Or.inl ⟨h.1, h.2.1, h.2.2.1, rfl, h.2.2.2.2⟩
  · exact Or.inr ⟨h.plainS, h.plainT, h.count, rfl, h.iv, h.streams⟩

theorem alertMessage_not_ccs (f : Bytes) : alertMessage f ≠ .ok .ChangeCipherSpecMessage := by
  unfold alertMessage
  intro h
  split at h
  · cases h
  · split at h
    · cases h
    · dsimp only at h
      split at h
      · obtain ⟨a, _, h2⟩ := Res.bind_eq_ok.mp h
        cases h2
      · cases h

theorem messageOf_near (ty : ContentType) (f : Bytes) : Pair (After (ty = .ChangeCipherSpecTy)) (messageOf ty f) (messageOf ty f)
    (fun o o' s t => o = o' ∧ After (o = some .ChangeCipherSpecMessage) s t) (fun _ _ => True) False := by
  cases ty with
  | ChangeCipherSpecTy =>
    refine Pair.bind (Q := fun a b s t => a = b ∧ Same s t) (Pair.lift (fun _ _ _ _ h => ⟨rfl, h.2 rfl⟩) fun _ _ _ => trivial) fun a b => ?_
    exact Pair.pure fun s t h => ⟨by rw [h.1], .of_same h.2⟩
  | AlertTy =>
    refine Pair.bind (Q := fun a b s t => (a = b ∧ a ≠ .ChangeCipherSpecMessage) ∧ Near s t) (Pair.lift (fun a _ _ ha h => ⟨⟨rfl, fun he => alertMessage_not_ccs f (he ▸ ha)⟩, h.1⟩) fun _ _ _ => trivial) fun a b => ?_
    exact Pair.pure fun s t h => ⟨by rw [h.1.1], h.2, fun he => absurd (Option.some.inj he) h.1.2⟩
  | HandshakeTy =>
    refine Pair.ite (Pair.err fun _ _ _ => trivial) (Pair.bind ((onBuffer_near _).mono (fun s t h => h.1) fun _ _ _ _ h => h) fun _ _ => ?_)
    refine Pair.bind ((onBuffer_near _).mono (fun s t h => h.2) fun _ _ _ _ h => h) fun o o' => ?_
    rintro s t ⟨rfl, h⟩
    cases o with
    | none => exact .ok ⟨rfl, h, fun he => by cases he⟩
    | some x => exact .ok ⟨rfl, h, fun he => by cases he⟩
  | ApplicationDataTy => exact Pair.pure fun s t h => ⟨rfl, h.1, fun he => by cases he⟩

/-- Records that differ at most in their version. -/
def RecordNear (r r' : Record) : Prop := r.contentType = r'.contentType ∧ r.fragment = r'.fragment

theorem finish_near {m : Mode} {ty : ContentType} {a b a' b' : UInt8} {f : Bytes} {s t : TlsReader} (hs : s.decryptor = none) (ht : t.decryptor = none) (hc : s.readCount = t.readCount)
    (hb : s.handshakeBuffer = t.handshakeBuffer) (hi : s.iv = t.iv) (hl : (ty = .ChangeCipherSpecTy ∧ s.reader.stream = t.reader.stream) ∨
      (ty ≠ .ChangeCipherSpecTy ∧ (s.reader.stream = t.reader.stream ∨ VersionsAltered s.reader.stream t.reader.stream))) :
    Agree (fun r r' s t => RecordNear r r' ∧ After (r.contentType = .ChangeCipherSpecTy) s t) (fun _ _ => True) False ((finish m ty a b f).run s) ((finish m ty a' b' f).run t) := by
  have hu : ∀ (s : TlsReader) (a b : UInt8), s.decryptor = none → s.unprotect ty a b f = if f.length > RECORD_MAX_LEN then .err .RecordOverflow else .ok ⟨ty, a, b, f⟩ := by
    intro s a b hs
    simp only [unprotect, hs, Record.new]
    split
    · rfl
    · rfl
  rw [finish_run, finish_run, hu s a b hs, hu t a' b' ht]
  by_cases hf : f.length > RECORD_MAX_LEN
  · rw [if_pos hf, if_pos hf]
    exact .err trivial
  · rw [if_neg hf, if_neg hf]
    dsimp only
    rcases bump_cases m s with h1 | ⟨h1, h2⟩
    · rcases bump_cases m t with h3 | ⟨h3, h4⟩
      · rw [h1, h3]
        refine .ok ⟨⟨rfl, rfl⟩, ?_⟩
        rcases hl with ⟨_, hl⟩ | ⟨hty, hl | hl⟩
        · exact .of_same ⟨hl, by rw [hs, ht], by dsimp only; rw [hc], hb, hi⟩
        · exact .of_same ⟨hl, by rw [hs, ht], by dsimp only; rw [hc], hb, hi⟩
        · exact ⟨Or.inr ⟨hs, ht, by dsimp only; rw [hc], hb, hi, hl⟩, fun he => absurd he hty⟩
      · have : (bump m).run s = (.panic, s) := by
          simp only [bump, hc] at h3 ⊢
          generalize addU64 m t.readCount 1 = x at h3 ⊢
          cases x <;> simp at h3 ⊢
        rw [this, h3]
        exact .panic trivial
    · have : (bump m).run t = (.panic, t) := by
        simp only [bump, hc] at h1 ⊢
        generalize addU64 m t.readCount 1 = x at h1 ⊢
        cases x <;> simp at h1 ⊢
      rw [this, h1]
      exact .panic trivial

theorem readRecord_near (m : Mode) : Pair Near (readRecord m) (readRecord m) (fun r r' s t => RecordNear r r' ∧ After (r.contentType = .ChangeCipherSpecTy) s t) (fun _ _ => True) False := by
  rintro s t (h | h)
  · obtain ⟨r, s', t', h1, h2, h3⟩ := Respects.cases (readRecord_respects m) h
    rw [h1, h2]
    exact Agree.same (R := Same) r h3 (fun _ h => ⟨⟨rfl, rfl⟩, .of_same h⟩) fun _ => trivial
  · obtain ⟨p1, p2, p3, p4, p5, p6⟩ := h
    generalize hl : s.reader.stream = l at p6
    generalize hl' : t.reader.stream = l' at p6
    cases p6 with
    | @last ty a b a' b' f l hf =>
      obtain ⟨r1, e1, e2⟩ := readRecord_front (m := m) hf hl
      obtain ⟨r2, e3, e4⟩ := readRecord_front (m := m) hf hl'
      rw [e2, e4]
      refine finish_near p1 p2 p3 p4 p5 ?_
      dsimp only
      rw [e1, e3]
      by_cases hty : ty = .ChangeCipherSpecTy
      · exact Or.inl ⟨hty, rfl⟩
      · exact Or.inr ⟨hty, Or.inl rfl⟩
    | @cons ty a b a' b' f l l' hf hty hv =>
      obtain ⟨r1, e1, e2⟩ := readRecord_front (m := m) hf hl
      obtain ⟨r2, e3, e4⟩ := readRecord_front (m := m) hf hl'
      rw [e2, e4]
      refine finish_near p1 p2 p3 p4 p5 ?_
      dsimp only
      rw [e1, e3]
      exact Or.inr ⟨hty, Or.inr hv⟩

theorem messageStep_near (m : Mode) : Pair Near (messageStep m) (messageStep m) (fun o o' s t => o = o' ∧ After (o = some .ChangeCipherSpecMessage) s t) (fun _ _ => True) False := by
  rw [messageStep_eq]
  refine Pair.bind (readRecord_near m) fun r r' => ?_
  rintro s t ⟨⟨h1, h2⟩, h⟩
  rw [← h1, ← h2]
  exact messageOf_near _ _ s t h

theorem messageLoop_near (m : Mode) (fuel : Nat) : Pair Near (messageLoop m fuel) (messageLoop m fuel) (fun a b s t => a = b ∧ After (a = .ChangeCipherSpecMessage) s t) (fun _ _ => True) False := by
  induction fuel with
  | zero => exact fun _ _ _ => .diverge trivial
  | succ fuel ih =>
    refine Pair.bind (messageStep_near m) fun o o' => ?_
    rintro s t ⟨rfl, h⟩
    cases o with
    | none => exact ih s t h.1
    | some msg => exact .ok ⟨rfl, h.1, fun he => h.2 (congrArg some he)⟩

theorem readMessage_near (m : Mode) : Pair Near (readMessage m) (readMessage m) (fun a b s t => a = b ∧ After (a = .ChangeCipherSpecMessage) s t) (fun _ _ => True) False := by
  refine Pair.bind (onBuffer_near _) fun o o' => ?_
  rintro s t ⟨rfl, h⟩
  cases o with
  | some x => exact .ok ⟨rfl, h, fun he => by cases he⟩
  | none =>
    have hb : s.reader.bytes = t.reader.bytes := by
      rw [Reader.bytes_eq, Reader.bytes_eq]
      rcases h with h | h
      · rw [h.1]
      · exact h.streams.count
    have hs : ((St.get >>= fun s => messageLoop m (s.reader.bytes + 1)).run s) = (messageLoop m (s.reader.bytes + 1)).run s := rfl
    have ht : ((St.get >>= fun s => messageLoop m (s.reader.bytes + 1)).run t) = (messageLoop m (t.reader.bytes + 1)).run t := rfl
    refine Eq.mpr (congrArg₂ _ hs ht) ?_
    rw [hb]
    exact messageLoop_near m _ s t h

theorem readHandshake_near (m : Mode) : Pair Near (readHandshake m) (readHandshake m) (fun a b s t => a = b ∧ Near s t) (fun _ _ => True) False := by
  refine Pair.bind (readMessage_near m) fun a b => ?_
  rintro s t ⟨rfl, h⟩
  cases a with
  | HandshakeMessage x => exact .ok ⟨rfl, h.1⟩
  | ChangeCipherSpecMessage => exact .err trivial
  | AlertMessage a => exact .err trivial
  | ApplicationDataMessage b => exact .err trivial

theorem readChangeCipherSpec_near (m : Mode) : Pair Near (readChangeCipherSpec m) (readChangeCipherSpec m) (fun _ _ s t => Same s t) (fun _ _ => True) False := by
  refine Pair.bind (readMessage_near m) fun a b => ?_
  rintro s t ⟨rfl, h⟩
  cases a with
  | HandshakeMessage x => exact .err trivial
  | ChangeCipherSpecMessage => exact .ok (h.2 rfl)
  | AlertMessage a => exact .err trivial
  | ApplicationDataMessage b => exact .err trivial

theorem setIv_near (iv : Bytes) : Pair Near (TlsReader.setIv iv) (TlsReader.setIv iv) (fun _ _ s t => Near s t) (fun _ _ => True) False := by
  intro s t h
  have hi : s.iv = t.iv := by
    rcases h with h | h
    · exact h.2.2.2.2
    · exact h.iv
  unfold TlsReader.setIv
  dsimp only
  rw [hi]
  cases t.iv with
  | some _ => exact .panic trivial
  | none =>
    refine .ok ?_
    rcases h with h | h
    · exact Or.inl ⟨h.1, h.2.1, h.2.2.1, h.2.2.2.1, rfl⟩
    · exact Or.inr ⟨h.plainS, h.plainT, h.count, h.buffer, rfl, h.streams⟩

end TlsReader

namespace TlsClient

/-- Clients that differ at most in the version bytes still to come in clear. -/
def Near (c d : TlsClient) : Prop := TlsReader.Near c.reader d.reader ∧ c.writer = d.writer ∧ c.rng = d.rng ∧ c.buf = d.buf

/-- Clients that have sent the same. -/
def SameSent (c d : TlsClient) : Prop := c.writer = d.writer

/-- `Pair` for calls on clients: the same value, clients related by `R`. -/
abbrev NearPair (P : TlsClient → TlsClient → Prop) (x : St TlsClient α) (R : TlsClient → TlsClient → Prop) : Prop := Pair P x x (fun a b c d => a = b ∧ R c d) SameSent False

theorem NearPair.bind {P Q R : TlsClient → TlsClient → Prop} {x : St TlsClient α} {f : α → St TlsClient β} (h : NearPair P x Q) (hf : ∀ a, NearPair Q (f a) R) : NearPair P (x >>= f) R :=
  Pair.bind h fun a b => by
    rintro s t ⟨rfl, h⟩
    exact hf a s t h

theorem onReader_near {x : St TlsReader α} (h : Pair TlsReader.Near x x (fun a b s t => a = b ∧ TlsReader.Near s t) (fun _ _ => True) False) : NearPair Near (onReader x) Near := by
  intro c d hc
  have h := h _ _ hc.1
  simp only [onReader, St.zoom_run]
  generalize x.run c.reader = r at h ⊢
  generalize x.run d.reader = r' at h ⊢
  cases h with
  | ok h => exact .ok ⟨h.1, h.2, hc.2⟩
  | err h => exact .err hc.2.1
  | panic h => exact .panic hc.2.1
  | diverge h => exact .diverge hc.2.1
  | free h => exact h.elim

theorem onWriter_near (x : St TlsWriter α) : NearPair Near (onWriter x) Near := by
  intro c d hc
  simp only [onWriter, St.zoom_run]
  rw [hc.2.1]
  generalize x.run d.writer = r
  obtain ⟨r, u⟩ := r
  exact Agree.same (R := Near) r ⟨hc.1, rfl, hc.2.2⟩ (fun _ h => ⟨rfl, h⟩) fun h => h.2.1

theorem onRng_near (x : St Rng α) : NearPair Near (onRng x) Near := by
  intro c d hc
  simp only [onRng, St.zoom_run]
  rw [hc.2.2.1]
  generalize x.run d.rng = r
  obtain ⟨r, u⟩ := r
  exact Agree.same (R := Near) r ⟨hc.1, hc.2.1, rfl, hc.2.2.2⟩ (fun _ h => ⟨rfl, h⟩) fun h => h.2.1

theorem lift_near (r : Res α) : NearPair Near (St.lift r) Near := Pair.lift (fun _ _ _ _ h => ⟨rfl, h⟩) fun _ _ h => h.2.1
theorem pure_near (a : α) : NearPair Near (pure a) Near := Pair.pure fun _ _ h => ⟨rfl, h⟩

theorem expect_near {m : Mode} {α : Type} (f : Handshake → St TlsReader α) (hf : ∀ h, (∃ a, f h = pure a) ∨ ∃ k, f h = St.err k) :
    Pair TlsReader.Near (readHandshake m >>= f) (readHandshake m >>= f) (fun a b s t => a = b ∧ TlsReader.Near s t) (fun _ _ => True) False := by
  refine Pair.bind (readHandshake_near m) fun a b => ?_
  rintro s t ⟨rfl, h⟩
  rcases hf a with ⟨x, e⟩ | ⟨k, e⟩
  · rw [e]; exact .ok ⟨rfl, h⟩
  · rw [e]; exact .err trivial

theorem readFlight_near (m : Mode) : NearPair Near (readFlight m) Near :=
  .bind (onReader_near (expect_near _ fun h => by cases h <;> first | exact Or.inl ⟨_, rfl⟩ | exact Or.inr ⟨_, rfl⟩)) fun _ => .bind (lift_near _) fun _ =>
  .bind (onReader_near (expect_near _ fun h => by cases h <;> first | exact Or.inl ⟨_, rfl⟩ | exact Or.inr ⟨_, rfl⟩)) fun _ =>
  .bind (onReader_near (expect_near _ fun h => by cases h <;> first | exact Or.inl ⟨_, rfl⟩ | exact Or.inr ⟨_, rfl⟩)) fun _ => .bind (onRng_near _) fun _ =>
  .bind (onReader_near (expect_near _ fun h => by cases h <;> first | exact Or.inl ⟨_, rfl⟩ | exact Or.inr ⟨_, rfl⟩)) fun _ => pure_near _

theorem sendHello_near (m : Mode) : NearPair Near (sendHello m) Near := .bind (onRng_near _) fun _ => .bind (lift_near _) fun _ => .bind (onWriter_near _) fun _ => pure_near _

theorem installKeys_near (m : Mode) (a b c : Bytes) : NearPair Near (installKeys m a b c) Near :=
  .bind (lift_near _) fun _ => .bind (lift_near _) fun _ => .bind (onWriter_near _) fun _ => .bind (lift_near _) fun _ => .bind (lift_near _) fun _ => .bind (lift_near _) fun _ =>
  .bind (onWriter_near _) fun _ => .bind (onReader_near ((setIv_near _).mono (fun _ _ h => h) fun _ _ _ _ h => ⟨rfl, h⟩)) fun _ => pure_near _

theorem sendFinished_near (m : Mode) (cr : Bytes) (h : Handshake) (f : ServerFlight) : NearPair Near (sendFinished m cr h f) Near :=
  .bind (lift_near _) fun _ => .bind (onWriter_near _) fun _ => .bind (onWriter_near _) fun _ => .bind (lift_near _) fun _ => .bind (installKeys_near m _ _ _) fun _ =>
  .bind (lift_near _) fun _ => .bind (lift_near _) fun _ => .bind (lift_near _) fun _ => .bind (onWriter_near _) fun _ => pure_near _

theorem respects_near {x : St TlsClient α} (h : Respects Same x) : NearPair Same x Same := by
  intro c d hc
  obtain ⟨r, s', t', h1, h2, h3⟩ := Respects.cases h hc
  rw [h1, h2]
  exact Agree.same (R := Same) r h3 (fun _ h => ⟨rfl, h⟩) fun h => h.2.1

theorem readFinished_near (m : Mode) (a b c : Bytes) (h : Handshake) : NearPair Near (readFinished m a b c h) Same := by
  refine .bind (Q := Same) ?_ fun _ => respects_near (Respects.bind (onReader_respects (setDecryptor_respects _)) fun _ => Respects.bind (onReader_respects (expectFinished_respects m)) fun _ => Respects.lift _)
  intro c d hc
  have h := readChangeCipherSpec_near m _ _ hc.1
  simp only [onReader, St.zoom_run]
  generalize (readChangeCipherSpec m).run c.reader = r at h ⊢
  generalize (readChangeCipherSpec m).run d.reader = r' at h ⊢
  cases h with
  | ok h => exact .ok ⟨trivial, h, hc.2⟩
  | err h => exact .err hc.2.1
  | panic h => exact .panic hc.2.1
  | diverge h => exact .diverge hc.2.1
  | free h => exact h.elim

theorem handshake_near (m : Mode) : NearPair Near (handshake m) Same :=
  .bind (sendHello_near m) fun _ => .bind (readFlight_near m) fun _ => .bind (sendFinished_near m _ _ _) fun _ => readFinished_near m _ _ _ _

end TlsClient

/-! ### C75 -/

/-- C75 is false of the code, for whole sessions: change the version bytes of any of the records the server sends up to ChangeCipherSpec, in any way: `new` returns the
same and sends the same, and after a success every history of calls returns the same and sends the same. So the version is neither looked at nor covered by the Finished. -/
theorem C75_versions_ignored (m : Mode) (rd rd' : Reader) (h : VersionsAltered rd.stream rd'.stream) (wr : Writer) (rng : Rng) :
    (TlsClient.new m rd wr rng).1 = (TlsClient.new m rd' wr rng).1 ∧ (TlsClient.new m rd wr rng).2.writer.writer.wire = (TlsClient.new m rd' wr rng).2.writer.writer.wire ∧
      ((TlsClient.new m rd wr rng).1 = .ok () → ∀ calls, (runCalls m calls (TlsClient.new m rd wr rng).2).1 = (runCalls m calls (TlsClient.new m rd' wr rng).2).1 ∧
        (runCalls m calls (TlsClient.new m rd wr rng).2).2.writer.writer.wire = (runCalls m calls (TlsClient.new m rd' wr rng).2).2.writer.writer.wire) := by
  have hn : TlsClient.Near { reader := TlsReader.new rd, writer := TlsWriter.new wr, rng } { reader := TlsReader.new rd', writer := TlsWriter.new wr, rng } :=
    ⟨Or.inr ⟨rfl, rfl, rfl, rfl, rfl, h⟩, rfl, rfl, rfl⟩
  have hh := handshake_near m _ _ hn
  simp only [TlsClient.new]
  generalize (TlsClient.handshake m).run _ = r at hh ⊢
  generalize (TlsClient.handshake m).run _ = r' at hh ⊢
  cases hh with
  | ok h =>
    refine ⟨rfl, by rw [h.2.2.1], fun _ calls => ?_⟩
    obtain ⟨h1, h2⟩ := runCalls_same m calls h.2
    exact ⟨h1, by rw [h2.2.1]⟩
  | @err k c d h =>
    have ha : ((sendTlsAlert m k).run c).1 = ((sendTlsAlert m k).run d).1 ∧ ((sendTlsAlert m k).run c).2.writer = ((sendTlsAlert m k).run d).2.writer := by
      obtain ⟨f, hf⟩ := sendTlsAlert_only m k
      rw [hf, hf, h]
      exact ⟨rfl, rfl⟩
    dsimp only
    rw [St.bind_run, St.bind_run]
    generalize (sendTlsAlert m k).run c = r at ha ⊢
    generalize (sendTlsAlert m k).run d = r' at ha ⊢
    obtain ⟨r, c'⟩ := r
    obtain ⟨r', d'⟩ := r'
    obtain ⟨h1, h2⟩ := ha
    dsimp only at h1 h2
    subst h1
    cases r <;> exact ⟨rfl, by dsimp only [St.err_run]; rw [h2], fun he => by cases he⟩
  | panic h => exact ⟨rfl, by rw [h], fun he => by cases he⟩
  | diverge h => exact ⟨rfl, by rw [h], fun he => by cases he⟩
  | free h => exact h.elim

/-- C75 is false at the record layer: before protection starts, every record of legal length is accepted, with every version. -/
theorem C75_not_checked (m : Mode) : ¬ VersionChecked m := by
  intro h
  let l := ofBytes (recordBytes ContentType.ApplicationDataTy.toU8 0 0 [])
  have hs : (TlsReader.new (byteByByte (recordBytes ContentType.ApplicationDataTy.toU8 0 0 []))).reader.stream = l ++ [] := by
    rw [List.append_nil]
    exact stream_byteByByte _
  obtain ⟨r', -, h2⟩ := readRecord_front (m := m) (by decide) hs
  refine h _ .ApplicationDataTy 0 0 [] [] (by decide) hs ⟨.ApplicationDataTy, 0, 0, []⟩ ?_
  rw [h2, finish_run]
  cases m <;> rfl

/-- C75, what holds: the version is part of what a protected record authenticates. If a record sealed for TLS 1.2 is taken with another version, two different additional data
have the same Poly1305 tag under the key of that record. Missing: the records before ChangeCipherSpec, and a check as such (the owner of the keys may use any version). -/
theorem C75_protected_partial {m : Mode} {s : TlsReader} {key iv : Bytes} (hd : s.decryptor = some (.chacha m key)) (hk : key.length = 32) (hi : s.iv = some iv) (hl : iv.length = 12)
    (ty : ContentType) (a b : UInt8) (hab : (a, b) ≠ (3, 3)) (p : Bytes) (hp : p.length ≤ 2 ^ 14) (l : List Sym)
    (hs : s.reader.stream = ofBytes (recordBytes ty.toU8 a b (Spec.Aead.sealMsg key (recordNonce iv s.readCount.toNat) (recordAad s.readCount.toNat ty.toU8 3 3 p.length) p)) ++ l)
    {r : Record} (hr : ((readRecord m).run s).1 = .ok r) :
    recordAad s.readCount.toNat ty.toU8 a b p.length ≠ recordAad s.readCount.toNat ty.toU8 3 3 p.length ∧
    Spec.Aead.tag key (recordNonce iv s.readCount.toNat) (recordAad s.readCount.toNat ty.toU8 a b p.length) (Spec.ChaCha20.encrypt key 1 (recordNonce iv s.readCount.toNat) p) =
      Spec.Aead.tag key (recordNonce iv s.readCount.toNat) (recordAad s.readCount.toNat ty.toU8 3 3 p.length) (Spec.ChaCha20.encrypt key 1 (recordNonce iv s.readCount.toNat) p) := by
  generalize hn : recordNonce iv s.readCount.toNat = nonce at hs ⊢
  generalize haad : recordAad s.readCount.toNat ty.toU8 3 3 p.length = aad at hs ⊢
  have ht : ∀ c, (Spec.Aead.tag key nonce aad c).length = 16 := fun _ => Spec.Poly1305.mac_length _ _ _
  have he : (Spec.ChaCha20.encrypt key 1 nonce p).length = p.length := by simp [Spec.ChaCha20.encrypt]
  have hsl : (Spec.Aead.sealMsg key nonce aad p).length = p.length + 16 := by rw [Spec.Aead.sealMsg, List.length_append, ht, he]
  have hE : ENC_RECORD_MAX_LEN = 18432 := rfl
  obtain ⟨r', -, h2⟩ := readRecord_front (m := m) (by rw [hsl]; omega) hs
  rw [h2, finish_run] at hr
  have hu : ∃ rec, ({ s with reader := r' } : TlsReader).unprotect ty a b (Spec.Aead.sealMsg key nonce aad p) = .ok rec := by
    generalize ({ s with reader := r' } : TlsReader).unprotect ty a b (Spec.Aead.sealMsg key nonce aad p) = x at hr ⊢
    cases x <;> simp at hr
    exact ⟨_, rfl⟩
  obtain ⟨rec, hu⟩ := hu
  obtain ⟨q, -, ho⟩ := unprotect_chacha (s := { s with reader := r' }) hd hk hi hl (by rw [hsl]; omega) hu
  dsimp only at ho
  rw [hn] at ho
  have hq : q.length = p.length := by
    have := openMsg_length ho
    omega
  rw [hq] at ho
  constructor
  · rw [← haad]
    intro h
    simp [recordAad] at h
    exact hab (by rw [h.1, h.2])
  · rw [Spec.Aead.openMsg, hsl, Nat.add_sub_cancel, if_neg (by omega)] at ho
    dsimp only at ho
    have h1 : (Spec.Aead.sealMsg key nonce aad p).take p.length = Spec.ChaCha20.encrypt key 1 nonce p := by
      rw [Spec.Aead.sealMsg, List.take_left' he]
    have h2 : (Spec.Aead.sealMsg key nonce aad p).drop p.length = Spec.Aead.tag key nonce aad (Spec.ChaCha20.encrypt key 1 nonce p) := by
      rw [Spec.Aead.sealMsg, List.drop_left' he]
    rw [h1, h2] at ho
    by_contra hne
    rw [if_neg (fun h => hne h.symm)] at ho
    cases ho

/-- The streams of C75: a server's flight and ChangeCipherSpec in the versions of SSL 2 and of nothing. -/
example (f : Bytes) (hf : f.length ≤ 2 ^ 14) (l : List Sym) : VersionsAltered
    (ofBytes (recordBytes ContentType.HandshakeTy.toU8 3 3 f) ++ (ofBytes (recordBytes ContentType.ChangeCipherSpecTy.toU8 3 3 [1]) ++ l))
    (ofBytes (recordBytes ContentType.HandshakeTy.toU8 0 2 f) ++ (ofBytes (recordBytes ContentType.ChangeCipherSpecTy.toU8 255 255 [1]) ++ l)) :=
  .cons (by omega) (by decide) (.last (by decide))

/-- A handshake that completes with such records: the server's flight in one record of any version. -/
example (m : Mode) (V : ServerValues) (hV : V.Conforms) (a b : UInt8) (random block rest : Bytes) (wr : Writer) (hfa : wr.faults = []) (D : Draws rest random block [])
    (S : Session) (hS : S = V.session random (clientPoint block)) (hf : S.flight.length ≤ 2 ^ 14) (hne : S.flight ≠ []) (fs2 : List Bytes) (h2 : Cuts fs2 (finishedBytes S.serverVerify)) :
    ∃ c, TlsClient.new m (byteByByte (recordBytes 22 3 3 S.flight ++ (recordBytes 20 3 3 [1] ++ protectedRecords S.keys.serverKey S.keys.serverIv 22 0 fs2))) wr ⟨rest⟩ = (.ok (), c) ∧
      (TlsClient.new m (byteByByte (recordBytes 22 a b S.flight ++ (recordBytes 20 a b [1] ++ protectedRecords S.keys.serverKey S.keys.serverIv 22 0 fs2))) wr ⟨rest⟩).1 = .ok () := by
  obtain ⟨c, h, -⟩ := C29_completes_partial m (byteByByte (recordBytes 22 3 3 S.flight ++ (recordBytes 20 3 3 [1] ++ protectedRecords S.keys.serverKey S.keys.serverIv 22 0 fs2))) wr ⟨rest⟩ hfa
    random block [] D V hV S hS [S.flight] fs2 [] ⟨⟨by intro f hf'; rw [List.mem_singleton.mp hf']; exact ⟨hne, hf⟩, by simp, by simp⟩, h2, by
      rw [stream_byteByByte, List.append_nil]; simp [serverWire]⟩
  refine ⟨c, h, ?_⟩
  rw [← (C75_versions_ignored m _ _ ?_ wr ⟨rest⟩).1, h]
  rw [stream_byteByByte, stream_byteByByte, ofBytes_append, ofBytes_append, ofBytes_append, ofBytes_append]
  exact .cons (ty := .HandshakeTy) (by omega) (by decide) (.last (ty := .ChangeCipherSpecTy) (by decide))

end Husk
