import Verif.Proofs.TlsReader
import Verif.Props.HandshakeBuffer
/-! How the record layer turns records into messages. -/

namespace Husk

open Spec

namespace TlsReader

/-- `s'` is reached from `s` by accepting exactly the records `recs`, which are in the stream one after the other, possibly with other things before, between and after them. -/
inductive Accepts : TlsReader → List Record → TlsReader → Prop
  | nil {s s'} : s'.reader.stream <:+ s.reader.stream → s'.decryptor = s.decryptor → s'.readCount = s.readCount → s'.iv = s.iv → Accepts s [] s'
  | cons {s s1 s' ty a b f rec recs} : f.length ≤ ENC_RECORD_MAX_LEN → ofBytes (recordBytes ty.toU8 a b f) ++ s1.reader.stream <:+ s.reader.stream →
      s.unprotect ty a b f = .ok rec → s1.decryptor = s.decryptor → s1.readCount = s.readCount + 1 → s1.iv = s.iv → Accepts s1 recs s' → Accepts s (rec :: recs) s'

/-- `s'` is reached from `s` by taking exactly the records `recs`, and nothing else, from the stream. -/
inductive Took : TlsReader → List Record → TlsReader → Prop
  | nil {s s'} : s'.reader.stream = s.reader.stream → s'.decryptor = s.decryptor → s'.readCount = s.readCount → s'.iv = s.iv → Took s [] s'
  | cons {s s1 s' ty a b f rec recs} : f.length ≤ ENC_RECORD_MAX_LEN → s.reader.stream = ofBytes (recordBytes ty.toU8 a b f) ++ s1.reader.stream →
      s.unprotect ty a b f = .ok rec → s1.decryptor = s.decryptor → s1.readCount = s.readCount + 1 → s1.iv = s.iv → Took s1 recs s' →
      Took s (rec :: recs) s'

theorem unprotect_congr {s t : TlsReader} (h1 : s.decryptor = t.decryptor) (h2 : s.readCount = t.readCount) (h3 : s.iv = t.iv)
    (ty : ContentType) (a b : UInt8) (f : Bytes) : s.unprotect ty a b f = t.unprotect ty a b f := by
  unfold unprotect nonce ad
  rw [h1, h2, h3]

theorem Took.accepts {s s' recs} (h : Took s recs s') : Accepts s recs s' := by
  induction h with
  | nil e a b c => exact .nil (e ▸ List.suffix_refl _) a b c
  | cons hl hs h1 h2 h3 h4 _ ih => exact .cons hl (hs ▸ List.suffix_refl _) h1 h2 h3 h4 ih

theorem Accepts.left {s0 s s' recs} (e : s.reader.stream <:+ s0.reader.stream) (a : s.decryptor = s0.decryptor) (b : s.readCount = s0.readCount) (c : s.iv = s0.iv)
    (h : Accepts s recs s') : Accepts s0 recs s' := by
  cases h with
  | nil h0 h1 h2 h3 => exact .nil (h0.trans e) (h1.trans a) (h2.trans b) (h3.trans c)
  | cons hl h0 h1 h2 h3 h4 h5 => exact .cons hl (h0.trans e) ((unprotect_congr a b c _ _ _ _) ▸ h1) (h2.trans a) (by rw [h3, b]) (h4.trans c) h5

theorem Accepts.trans {s s1 s' r1 r2} (h1 : Accepts s r1 s1) (h2 : Accepts s1 r2 s') : Accepts s (r1 ++ r2) s' := by
  induction h1 with
  | nil e a b c => exact h2.left e a b c
  | cons hl e a b c d _ ih => exact .cons hl e a b c d (ih h2)

theorem Took.left {s0 s s' recs} (e : s.reader.stream = s0.reader.stream) (a : s.decryptor = s0.decryptor) (b : s.readCount = s0.readCount)
    (c : s.iv = s0.iv) (h : Took s recs s') : Took s0 recs s' := by
  cases h with
  | nil h0 h1 h2 h3 => exact .nil (h0.trans e) (h1.trans a) (h2.trans b) (h3.trans c)
  | cons hl hs h1 h2 h3 h4 h5 =>
    exact .cons hl (e ▸ hs) ((unprotect_congr a b c _ _ _ _) ▸ h1) (h2.trans a) (by rw [h3, b]) (h4.trans c) h5

theorem Took.trans {s s1 s' r1 r2} (h1 : Took s r1 s1) (h2 : Took s1 r2 s') : Took s (r1 ++ r2) s' := by
  induction h1 with
  | nil e a b c => exact h2.left e a b c
  | cons hl hs a b c d _ ih => exact .cons hl hs a b c d (ih h2)

theorem Took.snoc {s s1 s' r rec} (h1 : Took s r s1) (h2 : Took s1 [rec] s') : Took s (r ++ [rec]) s' := h1.trans h2

theorem readRecord_took {m : Mode} {s s' : TlsReader} {rec : Record} (h : (readRecord m).run s = (.ok rec, s')) :
    Took s [rec] s' ∧ s'.handshakeBuffer = s.handshakeBuffer := by
  obtain ⟨ty, a, b, f, r', hl, hs, hu, rfl⟩ := readRecord_inv h
  exact ⟨.cons (s1 := { s with reader := r', readCount := s.readCount + 1 }) hl hs hu rfl rfl rfl (.nil rfl rfl rfl rfl), rfl⟩

/-- The fragments of the records, in order. -/
def frags (recs : List Record) : Bytes := recs.flatMap (·.fragment)

/-- All records are handshake records. -/
def AllHandshake (recs : List Record) : Prop := ∀ r ∈ recs, r.contentType = .HandshakeTy

/-- A complete message at the front of the buffer. -/
def TakesMessage (buf : Bytes) (h : Handshake) (rest : Bytes) : Prop := HandshakeBuffer.getMessage.run ⟨buf⟩ = (.ok (some h), ⟨rest⟩)

/-- How a message came out of the records taken (with the handshake buffer before and after). -/
def Origin (buf : Bytes) (recs : List Record) : Message → Bytes → Prop
  | .HandshakeMessage h, buf' => AllHandshake recs ∧ TakesMessage (buf ++ frags recs) h buf'
  | .ChangeCipherSpecMessage, buf' => ∃ pre rec, recs = pre ++ [rec] ∧ AllHandshake pre ∧ buf' = buf ++ frags pre ∧
      rec.contentType = .ChangeCipherSpecTy ∧ ccsMessage rec.fragment = .ok .ChangeCipherSpecMessage
  | .AlertMessage a, buf' => ∃ pre rec, recs = pre ++ [rec] ∧ AllHandshake pre ∧ buf' = buf ++ frags pre ∧
      rec.contentType = .AlertTy ∧ alertMessage rec.fragment = .ok (.AlertMessage a)
  | .ApplicationDataMessage b, buf' => ∃ pre rec, recs = pre ++ [rec] ∧ AllHandshake pre ∧ buf' = buf ++ frags pre ∧
      rec.contentType = .ApplicationDataTy ∧ rec.fragment = b

theorem frags_append (a b : List Record) : frags (a ++ b) = frags a ++ frags b := by simp [frags]

theorem getMessage_none {buf buf' : HandshakeBuffer} (h : HandshakeBuffer.getMessage.run buf = (.ok none, buf')) : buf' = buf := by
  simp only [HandshakeBuffer.getMessage] at h
  split at h
  · simp at h; exact h.symm
  · split at h
    · simp at h; exact h.symm
    · split at h <;> simp at h

theorem ccsMessage_ok {f : Bytes} {msg : Message} (h : ccsMessage f = .ok msg) : msg = .ChangeCipherSpecMessage := by
  unfold ccsMessage at h
  split at h
  · simp at h
  · simp at h; exact h.symm

theorem alertMessage_ok {f : Bytes} {msg : Message} (h : alertMessage f = .ok msg) : ∃ a, msg = .AlertMessage a := by
  unfold alertMessage at h
  split at h
  · simp at h
  · split at h
    · simp at h
    · simp only at h
      split at h
      · simp [Alert.new] at h; exact ⟨_, h.symm⟩
      · simp at h

theorem ccsMessage_returns (f : Bytes) : (ccsMessage f).Returns := by
  unfold ccsMessage
  split <;> trivial

theorem alertMessage_returns (f : Bytes) : (alertMessage f).Returns := by
  unfold alertMessage
  split
  · trivial
  · split
    · trivial
    · simp only
      split <;> trivial

/-- One round of the loop that returned. -/
theorem messageStep_inv {m : Mode} {s s' : TlsReader} {o : Option Message} (h : (messageStep m).run s = (.ok o, s')) :
    ∃ rec, Took s [rec] s' ∧
      match o with
      | some msg => Origin s.handshakeBuffer.buf [rec] msg s'.handshakeBuffer.buf
      | none => rec.contentType = .HandshakeTy ∧ s'.handshakeBuffer.buf = s.handshakeBuffer.buf ++ rec.fragment ∧
          HandshakeBuffer.getMessage.run s'.handshakeBuffer = (.ok none, s'.handshakeBuffer) := by
  obtain ⟨rec, s1, h1, h2⟩ := St.bind_eq_ok h
  obtain ⟨ht, hb⟩ := readRecord_took h1
  refine ⟨rec, ?_⟩
  cases hty : rec.contentType with
  | ChangeCipherSpecTy =>
    rw [hty] at h2
    simp only at h2
    obtain ⟨msg, s2, h3, h4⟩ := St.bind_eq_ok h2
    rw [St.lift_run] at h3
    rw [St.pure_run] at h4
    simp only [Prod.mk.injEq, Res.ok.injEq] at h3 h4
    obtain ⟨h3, rfl⟩ := h3
    obtain ⟨rfl, rfl⟩ := h4
    have := ccsMessage_ok h3
    subst this
    exact ⟨ht, [], rec, rfl, by intro r hr; simp at hr, by rw [hb]; simp [frags], hty, h3⟩
  | AlertTy =>
    rw [hty] at h2
    simp only at h2
    obtain ⟨msg, s2, h3, h4⟩ := St.bind_eq_ok h2
    rw [St.lift_run] at h3
    rw [St.pure_run] at h4
    simp only [Prod.mk.injEq, Res.ok.injEq] at h3 h4
    obtain ⟨h3, rfl⟩ := h3
    obtain ⟨rfl, rfl⟩ := h4
    obtain ⟨a, rfl⟩ := alertMessage_ok h3
    exact ⟨ht, [], rec, rfl, by intro r hr; simp at hr, by rw [hb]; simp [frags], hty, h3⟩
  | HandshakeTy =>
    rw [hty] at h2
    simp only at h2
    split at h2
    · simp [St.err_run] at h2
    · obtain ⟨_, s2, h3, h4⟩ := St.bind_eq_ok h2
      obtain ⟨o', s3, h5, h6⟩ := St.bind_eq_ok h4
      simp only [onBuffer, St.zoom_run, HandshakeBuffer.addRecord, St.modify_run, Prod.mk.injEq] at h3
      obtain ⟨-, rfl⟩ := h3
      simp only [onBuffer, St.zoom_run] at h5
      rcases hg : HandshakeBuffer.getMessage.run ⟨s1.handshakeBuffer.buf ++ rec.fragment⟩ with ⟨x, b'⟩
      rw [hg] at h5
      simp only [Prod.mk.injEq] at h5
      obtain ⟨rfl, rfl⟩ := h5
      have htook : ∀ b, Took s [rec] { s1 with handshakeBuffer := b } := by
        intro b
        have := ht.trans (Took.nil (s := s1) (s' := { s1 with handshakeBuffer := b }) rfl rfl rfl rfl)
        simpa using this
      cases o' with
      | some hh =>
        simp only [St.pure_run, Prod.mk.injEq, Res.ok.injEq] at h6
        obtain ⟨rfl, rfl⟩ := h6
        refine ⟨htook _, ?_, ?_⟩
        · intro r hr; simp at hr; rw [hr]; exact hty
        · simp only [TakesMessage, frags, List.flatMap_cons, List.flatMap_nil, List.append_nil]
          rw [hb] at hg
          exact hg
      | none =>
        simp only [St.pure_run, Prod.mk.injEq, Res.ok.injEq] at h6
        obtain ⟨rfl, rfl⟩ := h6
        have := getMessage_none hg
        subst this
        refine ⟨htook _, rfl, ?_, hg⟩
        rw [hb]
  | ApplicationDataTy =>
    rw [hty] at h2
    simp only [St.pure_run, Prod.mk.injEq, Res.ok.injEq] at h2
    obtain ⟨rfl, rfl⟩ := h2
    exact ⟨ht, [], rec, rfl, by intro r hr; simp at hr, by rw [hb]; simp [frags], hty, rfl⟩

theorem Origin.cons {buf : Bytes} {rec : Record} {recs : List Record} {msg : Message} {buf' : Bytes} (hty : rec.contentType = .HandshakeTy)
    (h : Origin (buf ++ rec.fragment) recs msg buf') : Origin buf (rec :: recs) msg buf' := by
  have hall : ∀ pre, AllHandshake pre → AllHandshake (rec :: pre) := by
    intro pre hp r hr
    rcases List.mem_cons.mp hr with rfl | hr
    · exact hty
    · exact hp r hr
  have hf : ∀ pre, frags (rec :: pre) = rec.fragment ++ frags pre := fun _ => rfl
  cases msg with
  | HandshakeMessage h' => exact ⟨hall _ h.1, by rw [hf, ← List.append_assoc]; exact h.2⟩
  | ChangeCipherSpecMessage =>
    obtain ⟨pre, r, rfl, h2, h3, h4⟩ := h
    exact ⟨rec :: pre, r, rfl, hall _ h2, by rw [hf, ← List.append_assoc]; exact h3, h4⟩
  | AlertMessage a =>
    obtain ⟨pre, r, rfl, h2, h3, h4⟩ := h
    exact ⟨rec :: pre, r, rfl, hall _ h2, by rw [hf, ← List.append_assoc]; exact h3, h4⟩
  | ApplicationDataMessage b =>
    obtain ⟨pre, r, rfl, h2, h3, h4⟩ := h
    exact ⟨rec :: pre, r, rfl, hall _ h2, by rw [hf, ← List.append_assoc]; exact h3, h4⟩

theorem messageLoop_inv {m : Mode} (fuel : Nat) {s s' : TlsReader} {msg : Message} (h : (messageLoop m fuel).run s = (.ok msg, s')) :
    ∃ recs, recs ≠ [] ∧ Took s recs s' ∧ Origin s.handshakeBuffer.buf recs msg s'.handshakeBuffer.buf := by
  induction fuel generalizing s with
  | zero => simp [messageLoop, St.lift_run] at h
  | succ fuel ih =>
    obtain ⟨o, s1, h1, h2⟩ := St.bind_eq_ok h
    obtain ⟨rec, ht, ho⟩ := messageStep_inv h1
    cases o with
    | some msg' =>
      simp only [St.pure_run, Prod.mk.injEq, Res.ok.injEq] at h2
      obtain ⟨rfl, rfl⟩ := h2
      exact ⟨[rec], by simp, ht, ho⟩
    | none =>
      obtain ⟨recs, _, ht', ho'⟩ := ih h2
      refine ⟨rec :: recs, by simp, ht.trans ht', Origin.cons ho.1 ?_⟩
      rw [← ho.2.1]
      exact ho'

/-- A message delivered: which records were taken and how the message came out of them. -/
theorem readMessage_inv {m : Mode} {s s' : TlsReader} {msg : Message} (h : (readMessage m).run s = (.ok msg, s')) :
    ∃ recs, Took s recs s' ∧ Origin s.handshakeBuffer.buf recs msg s'.handshakeBuffer.buf := by
  obtain ⟨o, s1, h1, h2⟩ := St.bind_eq_ok h
  simp only [onBuffer, St.zoom_run] at h1
  rcases hg : HandshakeBuffer.getMessage.run s.handshakeBuffer with ⟨x, b'⟩
  rw [hg] at h1
  simp only [Prod.mk.injEq] at h1
  obtain ⟨rfl, rfl⟩ := h1
  cases o with
  | some hh =>
    simp only [St.pure_run, Prod.mk.injEq, Res.ok.injEq] at h2
    obtain ⟨rfl, rfl⟩ := h2
    exact ⟨[], .nil rfl rfl rfl rfl, by intro r hr; simp at hr, by simpa [TakesMessage, frags] using hg⟩
  | none =>
    have := getMessage_none hg
    subst this
    have h2' : (messageLoop m (s.reader.bytes + 1)).run s = (.ok msg, s') := h2
    obtain ⟨recs, _, h3, h4⟩ := messageLoop_inv _ h2'
    exact ⟨recs, h3, h4⟩

/-- Everything but the delivery of application data. -/
def appOf (recs : List Record) : Bytes := (recs.filter fun r => r.contentType = .ApplicationDataTy).flatMap (·.fragment)

theorem appOf_append (a b : List Record) : appOf (a ++ b) = appOf a ++ appOf b := by simp [appOf]

theorem appOf_handshake {recs : List Record} (h : AllHandshake recs) : appOf recs = [] := by
  unfold appOf
  rw [List.filter_eq_nil_iff.mpr]
  · rfl
  · intro r hr
    rw [h r hr]
    simp

/-- What application data a message carries. -/
def Message.app : Message → Bytes
  | .ApplicationDataMessage b => b
  | _ => []

theorem Origin.app {buf buf' : Bytes} {recs : List Record} {msg : Message} (h : Origin buf recs msg buf') : appOf recs = Message.app msg := by
  cases msg with
  | HandshakeMessage h' => exact appOf_handshake h.1
  | ChangeCipherSpecMessage =>
    obtain ⟨pre, r, rfl, h2, _, h4, _⟩ := h
    rw [appOf_append, appOf_handshake h2]
    simp [appOf, h4, Message.app]
  | AlertMessage a =>
    obtain ⟨pre, r, rfl, h2, _, h4, _⟩ := h
    rw [appOf_append, appOf_handshake h2]
    simp [appOf, h4, Message.app]
  | ApplicationDataMessage b =>
    obtain ⟨pre, r, rfl, h2, _, h4, rfl⟩ := h
    rw [appOf_append, appOf_handshake h2]
    simp [appOf, h4, Message.app]

/-- A round that did not return: at most one record was accepted, and it was not application data. -/
theorem messageStep_fail {m : Mode} {s s' : TlsReader} {x : Res (Option Message)} (h : (messageStep m).run s = (x, s')) (hx : ∀ o, x ≠ .ok o) :
    (∃ recs, Accepts s recs s' ∧ appOf recs = []) ∧ countBytes s'.reader.stream ≤ countBytes s.reader.stream ∧
      (x = .panic → (readRecord m).run s = (.panic, s')) ∧ (x = .diverge → (readRecord m).run s = (.diverge, s')) := by
  rw [messageStep, St.bind_run] at h
  rcases hr : (readRecord m).run s with ⟨y, s1⟩
  rw [hr] at h
  cases y with
  | err k =>
    simp only [Prod.mk.injEq] at h
    obtain ⟨rfl, rfl⟩ := h
    obtain ⟨r', hc, rfl⟩ := readRecord_fail hr (by simp)
    exact ⟨⟨[], .nil hc rfl rfl rfl, rfl⟩, countBytes_suffix hc, by simp, by simp⟩
  | panic =>
    simp only [Prod.mk.injEq] at h
    obtain ⟨rfl, rfl⟩ := h
    obtain ⟨r', hc, rfl⟩ := readRecord_fail hr (by simp)
    exact ⟨⟨[], .nil hc rfl rfl rfl, rfl⟩, countBytes_suffix hc, fun _ => rfl, by simp⟩
  | diverge =>
    simp only [Prod.mk.injEq] at h
    obtain ⟨rfl, rfl⟩ := h
    obtain ⟨r', hc, rfl⟩ := readRecord_fail hr (by simp)
    exact ⟨⟨[], .nil hc rfl rfl rfl, rfl⟩, countBytes_suffix hc, by simp, fun _ => rfl⟩
  | ok rec =>
    simp only at h
    have hcons := readRecord_consumes hr
    obtain ⟨ht, hb⟩ := readRecord_took hr
    have key : ∀ {z : Res Message}, z.Returns → (St.lift z >>= fun msg => (pure (some msg) : St TlsReader (Option Message))).run s1 = (x, s') →
        s' = s1 ∧ x.Returns := by
      intro z hz hh
      rw [St.bind_run, St.lift_run] at hh
      cases z with
      | ok a => simp only [St.pure_run, Prod.mk.injEq] at hh; exact absurd hh.1.symm (hx _)
      | err k => simp only [Prod.mk.injEq] at hh; exact ⟨hh.2.symm, by rw [← hh.1]; trivial⟩
      | panic => exact absurd hz id
      | diverge => exact absurd hz id
    cases hty : rec.contentType with
    | ChangeCipherSpecTy =>
      rw [hty] at h
      obtain ⟨rfl, hret⟩ := key (ccsMessage_returns _) h
      exact ⟨⟨[rec], ht.accepts, by simp [appOf, hty]⟩, by omega, by rintro rfl; exact absurd hret id, by rintro rfl; exact absurd hret id⟩
    | AlertTy =>
      rw [hty] at h
      obtain ⟨rfl, hret⟩ := key (alertMessage_returns _) h
      exact ⟨⟨[rec], ht.accepts, by simp [appOf, hty]⟩, by omega, by rintro rfl; exact absurd hret id, by rintro rfl; exact absurd hret id⟩
    | ApplicationDataTy =>
      rw [hty] at h
      simp only [St.pure_run, Prod.mk.injEq] at h
      exact absurd h.1.symm (hx _)
    | HandshakeTy =>
      rw [hty] at h
      simp only at h
      split at h
      · simp only [St.err_run, Prod.mk.injEq] at h
        obtain ⟨rfl, rfl⟩ := h
        exact ⟨⟨[rec], ht.accepts, by simp [appOf, hty]⟩, by omega, by simp, by simp⟩
      · rw [St.bind_run] at h
        simp only [onBuffer, St.zoom_run, HandshakeBuffer.addRecord, St.modify_run] at h
        rw [St.bind_run] at h
        simp only [St.zoom_run] at h
        rcases hg : HandshakeBuffer.getMessage.run ⟨s1.handshakeBuffer.buf ++ rec.fragment⟩ with ⟨y, b'⟩
        have hret := C10_total ⟨s1.handshakeBuffer.buf ++ rec.fragment⟩
        rw [hg] at h hret
        have hacc : ∀ b, Accepts s [rec] { s1 with handshakeBuffer := b } := by
          intro b
          have := ht.accepts.trans (Accepts.nil (s := s1) (s' := { s1 with handshakeBuffer := b }) (List.suffix_refl _) rfl rfl rfl)
          simpa using this
        cases y with
        | ok o =>
          cases o with
          | some hh => simp only [St.pure_run, Prod.mk.injEq] at h; exact absurd h.1.symm (hx _)
          | none => simp only [St.pure_run, Prod.mk.injEq] at h; exact absurd h.1.symm (hx _)
        | err k =>
          simp only [Prod.mk.injEq] at h
          obtain ⟨rfl, rfl⟩ := h
          exact ⟨⟨[rec], hacc _, by simp [appOf, hty]⟩, by simp only; omega, by simp, by simp⟩
        | panic => exact absurd hret id
        | diverge => exact absurd hret id

theorem Took.count {s s' recs} (h : Took s recs s') : countBytes s'.reader.stream + 5 * recs.length ≤ countBytes s.reader.stream := by
  induction h with
  | nil e => rw [e]; simp
  | cons _ hs _ _ _ _ _ ih =>
    rw [hs, countBytes_append, countBytes_ofBytes, recordBytes_length, List.length_cons]
    omega

/-- What is known about a call that did not return `Ok`. -/
structure Failed (m : Mode) (s : TlsReader) (x : Res α) (s' : TlsReader) : Prop where
  accepts : ∃ recs, Accepts s recs s' ∧ appOf recs = []
  count : countBytes s'.reader.stream ≤ countBytes s.reader.stream
  panics : x = .panic → ∃ recs s1, Took s recs s1 ∧ (readRecord m).run s1 = (.panic, s')
  diverges : x = .diverge → ∃ recs s1, Took s recs s1 ∧ (readRecord m).run s1 = (.diverge, s')

theorem Failed.cons {m : Mode} {s s1 s' : TlsReader} {x : Res α} {recs : List Record} (h1 : Took s recs s1) (ha : appOf recs = [])
    (h2 : Failed m s1 x s') : Failed m s x s' where
  accepts := by
    obtain ⟨r2, h3, h4⟩ := h2.accepts
    exact ⟨recs ++ r2, h1.accepts.trans h3, by rw [appOf_append, ha, h4]; rfl⟩
  count := by have := h1.count; have := h2.count; omega
  panics := fun hx => by
    obtain ⟨r2, s2, h3, h4⟩ := h2.panics hx
    exact ⟨recs ++ r2, s2, h1.trans h3, h4⟩
  diverges := fun hx => by
    obtain ⟨r2, s2, h3, h4⟩ := h2.diverges hx
    exact ⟨recs ++ r2, s2, h1.trans h3, h4⟩

theorem messageLoop_fail {m : Mode} (fuel : Nat) {s s' : TlsReader} {x : Res Message} (h : (messageLoop m fuel).run s = (x, s')) (hx : ∀ o, x ≠ .ok o)
    (hf : countBytes s.reader.stream < fuel) : Failed m s x s' := by
  induction fuel generalizing s with
  | zero => omega
  | succ fuel ih =>
    rw [messageLoop, St.bind_run] at h
    rcases hs : (messageStep m).run s with ⟨y, s1⟩
    rw [hs] at h
    have hfail : (∀ o, y ≠ .ok o) → Failed m s y s1 := by
      intro hy
      obtain ⟨h1, h2, h3, h4⟩ := messageStep_fail hs hy
      exact ⟨h1, h2, fun e => ⟨[], s, .nil rfl rfl rfl rfl, h3 e⟩, fun e => ⟨[], s, .nil rfl rfl rfl rfl, h4 e⟩⟩
    have conv : ∀ {β γ} {y : Res β} {z : Res γ}, (y = .panic ↔ z = .panic) → (y = .diverge ↔ z = .diverge) → Failed m s y s1 → Failed m s z s1 :=
      fun h1 h2 h => ⟨h.accepts, h.count, fun e => h.panics (h1.mpr e), fun e => h.diverges (h2.mpr e)⟩
    cases y with
    | ok o =>
      cases o with
      | some msg => simp only [St.pure_run, Prod.mk.injEq] at h; exact absurd h.1.symm (hx _)
      | none =>
        obtain ⟨rec, ht, ho⟩ := messageStep_inv hs
        have := ht.count
        simp at this
        exact Failed.cons ht (by simp [appOf, ho.1]) (ih h (by omega))
    | err k =>
      simp only [Prod.mk.injEq] at h
      obtain ⟨rfl, rfl⟩ := h
      exact conv (by simp) (by simp) (hfail (by simp))
    | panic =>
      simp only [Prod.mk.injEq] at h
      obtain ⟨rfl, rfl⟩ := h
      exact conv (by simp) (by simp) (hfail (by simp))
    | diverge =>
      simp only [Prod.mk.injEq] at h
      obtain ⟨rfl, rfl⟩ := h
      exact conv (by simp) (by simp) (hfail (by simp))

theorem readMessage_fail {m : Mode} {s s' : TlsReader} {x : Res Message} (h : (readMessage m).run s = (x, s')) (hx : ∀ o, x ≠ .ok o) :
    Failed m s x s' := by
  rw [readMessage, St.bind_run] at h
  simp only [onBuffer, St.zoom_run] at h
  rcases hg : HandshakeBuffer.getMessage.run s.handshakeBuffer with ⟨y, b'⟩
  have hret := C10_total s.handshakeBuffer
  rw [hg] at h hret
  cases y with
  | ok o =>
    cases o with
    | some hh => simp only [St.pure_run, Prod.mk.injEq] at h; exact absurd h.1.symm (hx _)
    | none =>
      have := getMessage_none hg
      subst this
      have h2 : (messageLoop m (s.reader.bytes + 1)).run s = (x, s') := h
      exact messageLoop_fail _ h2 hx (by rw [Reader.bytes_eq]; omega)
  | err k =>
    simp only [Prod.mk.injEq] at h
    obtain ⟨rfl, rfl⟩ := h
    exact ⟨⟨[], .nil (List.suffix_refl _) rfl rfl rfl, rfl⟩, Nat.le_refl _, by simp, by simp⟩
  | panic => exact absurd hret id
  | diverge => exact absurd hret id

/-- The application data that one call of `read_application_data` delivered. -/
def delivered : Res Bytes → Bytes
  | .ok b => b
  | _ => []

/-- `read_application_data` delivers exactly the application data of the records it accepts (unless it panics). -/
theorem readApplicationData_accepts {m : Mode} {s s' : TlsReader} {x : Res Bytes} (h : (readApplicationData m).run s = (x, s')) :
    ∃ recs, Accepts s recs s' ∧ appOf recs = delivered x := by
  rw [readApplicationData, St.bind_run, St.get_run] at h
  simp only at h
  split at h
  · simp only [St.panic_run, Prod.mk.injEq] at h
    obtain ⟨rfl, rfl⟩ := h
    exact ⟨[], .nil (List.suffix_refl _) rfl rfl rfl, rfl⟩
  · rw [St.bind_run] at h
    rcases hr : (readMessage m).run s with ⟨y, s1⟩
    rw [hr] at h
    cases y with
    | ok msg =>
      obtain ⟨recs, ht, ho⟩ := readMessage_inv hr
      simp only [St.lift_run, Prod.mk.injEq] at h
      obtain ⟨rfl, rfl⟩ := h
      refine ⟨recs, ht.accepts, ?_⟩
      rw [ho.app]
      cases msg with
      | AlertMessage a =>
        simp only [applicationData, Message.app]
        split <;> rfl
      | _ => rfl
    | err k =>
      simp only [Prod.mk.injEq] at h
      obtain ⟨rfl, rfl⟩ := h
      exact (readMessage_fail hr (by simp)).accepts
    | panic =>
      simp only [Prod.mk.injEq] at h
      obtain ⟨rfl, rfl⟩ := h
      exact (readMessage_fail hr (by simp)).accepts
    | diverge =>
      simp only [Prod.mk.injEq] at h
      obtain ⟨rfl, rfl⟩ := h
      exact (readMessage_fail hr (by simp)).accepts

end TlsReader

end Husk
