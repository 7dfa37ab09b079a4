import Verif.Proofs.DecodeKinds
import Verif.Props.Acceptance
/-! Why a record or a message could not be read. -/

namespace Husk

open Item Spec

namespace TlsReader

/-- The stream gives `p` and then ends, or fails once. -/
def StopsAfter (stream : List Sym) (p : Bytes) (left : List Sym) : Prop := (stream = ofBytes p ∧ left = []) ∨ stream = ofBytes p ++ Sym.stop :: left

theorem StopsAfter.prepend {stream left : List Sym} {p q : Bytes} (h : StopsAfter stream p left) : StopsAfter (ofBytes q ++ stream) (q ++ p) left := by
  rcases h with ⟨rfl, h2⟩ | rfl
  · exact Or.inl ⟨by simp [ofBytes], h2⟩
  · exact Or.inr (by simp [ofBytes])

/-- The beginning of a record that may be acceptable, but not all of it: not the whole header, or not the whole fragment that the header announces. -/
def RecordCut (p : Bytes) : Prop :=
  (∀ t ∈ p.head?, t ∈ [20, 21, 22, 23]) ∧ (p.length < 5 ∨ (beNat ((p.drop 3).take 2) ≤ 18432 ∧ p.length < 5 + beNat ((p.drop 3).take 2)))

/-- What can be wrong with the next record, what is reported, and what is left of the stream. -/
inductive BadRecord (s : TlsReader) : TlsErrorKind → List Sym → Prop
  /-- The transport ends, or fails, before the record is complete. -/
  | stops (p : Bytes) (l : List Sym) : RecordCut p → StopsAfter s.reader.stream p l → BadRecord s .IoFailure l
  /-- Its type is not known. -/
  | type (n : UInt8) (l : List Sym) : n ∉ [20, 21, 22, 23] → s.reader.stream = ofBytes [n] ++ l → BadRecord s .UnexpectedMessage l
  /-- It is announced as too long. -/
  | announced (ty a b : UInt8) (n : Nat) (l : List Sym) : ty ∈ [20, 21, 22, 23] → 18432 < n → n < 2 ^ 16 → s.reader.stream = ofBytes ([ty, a, b] ++ beBytes 2 n) ++ l → BadRecord s .RecordOverflow l
  /-- It is complete, and refused as what it is. -/
  | refused (ty : ContentType) (a b : UInt8) (f : Bytes) (k : TlsErrorKind) (l : List Sym) : f.length ≤ 18432 → s.reader.stream = ofBytes (recordBytes ty.toU8 a b f) ++ l →
      s.unprotect ty a b f = .err k → BadRecord s k l

theorem readExact_stops {n : Nat} {r r' : Reader} {k : TlsErrorKind} (h : (Reader.readExact n).run r = (.err k, r')) :
    k = .IoFailure ∧ ∃ p : Bytes, p.length < n ∧ StopsAfter r.stream p r'.stream := by
  obtain ⟨r2, h1, h2⟩ := Reader.readExact_spec n r
  rw [h] at h1
  rcases e : takeBytes n r.stream with ⟨_ | bs, l⟩
  · rw [e] at h1 h2
    simp only [Reader.resOf, Prod.mk.injEq, Res.err.injEq] at h1
    obtain ⟨rfl, rfl⟩ := h1
    obtain ⟨bs, hl, ⟨h3, h4⟩ | h3⟩ := Spec.takeBytes_none e
    · exact ⟨rfl, bs, hl, Or.inl ⟨h3, h2.trans h4⟩⟩
    · exact ⟨rfl, bs, hl, Or.inr (by rw [h3, h2])⟩
  · rw [e] at h1; simp [Reader.resOf] at h1

theorem readU8_stops {r r' : Reader} {k : TlsErrorKind} (h : Reader.readU8.run r = (.err k, r')) : k = .IoFailure ∧ StopsAfter r.stream [] r'.stream := by
  rcases Reader.readExact_total 1 r with ⟨b, r2, h2⟩ | ⟨r2, h2⟩
  · rw [Reader.readU8, St.bind_of_ok h2] at h; cases h
  · rw [Reader.readU8, St.bind_of_err h2] at h
    cases h
    obtain ⟨_, p, hp, hs⟩ := readExact_stops h2
    cases p with
    | nil => exact ⟨rfl, hs⟩
    | cons x p => simp at hp

theorem readBeU16_stops {r r' : Reader} {k : TlsErrorKind} (h : Reader.readBeU16.run r = (.err k, r')) :
    k = .IoFailure ∧ ∃ p : Bytes, p.length < 2 ∧ StopsAfter r.stream p r'.stream := by
  rcases Reader.readExact_total 2 r with ⟨b, r2, h2⟩ | ⟨r2, h2⟩
  · rw [Reader.readBeU16, St.bind_of_ok h2] at h; cases h
  · rw [Reader.readBeU16, St.bind_of_err h2] at h
    cases h
    exact readExact_stops h2

theorem type_mem (ty : ContentType) : ty.toU8 ∈ ([20, 21, 22, 23] : Bytes) := by cases ty <;> decide

theorem type_not_mem {n : UInt8} (h : ContentType.ofU8 n = none) : n ∉ ([20, 21, 22, 23] : Bytes) := by
  intro hm
  simp only [List.mem_cons, List.not_mem_nil, or_false] at hm
  rcases hm with rfl | rfl | rfl | rfl <;> cases h

/-- A record that is not delivered. -/
theorem readRecord_err {m : Mode} {s s' : TlsReader} {k : TlsErrorKind} (h : (readRecord m).run s = (.err k, s')) :
    BadRecord s k s'.reader.stream ∧ s'.decryptor = s.decryptor ∧ s'.iv = s.iv ∧ s'.handshakeBuffer = s.handshakeBuffer ∧ s'.readCount = s.readCount := by
  rcases Reader.readU8_total s.reader with ⟨n, r1, h1⟩ | ⟨r1, h1⟩
  rotate_left
  · rw [readRecord, St.bind_of_err (io_err h1)] at h
    cases h
    exact ⟨.stops [] _ ⟨by simp, by simp⟩ (readU8_stops h1).2, rfl, rfl, rfl, rfl⟩
  have hs1 := Reader.readU8_inv h1
  cases hty : ContentType.ofU8 n with
  | none =>
    rw [readRecord, St.bind_of_ok (io_ok h1)] at h
    simp only [hty] at h
    cases h
    exact ⟨.type n _ (type_not_mem hty) hs1, rfl, rfl, rfl, rfl⟩
  | some ty =>
  have htn := ContentType.toU8_ofU8 hty
  subst htn
  rcases Reader.readU8_total r1 with ⟨a, r2, h2⟩ | ⟨r2, h2⟩
  rotate_left
  · rw [readRecord, St.bind_of_ok (io_ok h1)] at h
    simp only [hty] at h
    rw [St.bind_of_err (io_err (s := { s with reader := r1 }) h2)] at h
    cases h
    refine ⟨.stops [ty.toU8] _ ⟨by simpa using type_mem ty, by simp⟩ ?_, rfl, rfl, rfl, rfl⟩
    rw [hs1]
    exact (readU8_stops h2).2.prepend
  have hs2 := Reader.readU8_inv h2
  rcases Reader.readU8_total r2 with ⟨b, r3, h3⟩ | ⟨r3, h3⟩
  rotate_left
  · rw [readRecord, St.bind_of_ok (io_ok h1)] at h
    simp only [hty] at h
    rw [St.bind_of_ok (io_ok (s := { s with reader := r1 }) h2), St.bind_of_err (io_err (s := { s with reader := r2 }) h3)] at h
    cases h
    refine ⟨.stops [ty.toU8, a] _ ⟨by simpa using type_mem ty, by simp⟩ ?_, rfl, rfl, rfl, rfl⟩
    rw [hs1, hs2]
    exact (readU8_stops h3).2.prepend.prepend
  have hs3 := Reader.readU8_inv h3
  rcases Reader.readBeU16_total r3 with ⟨len, r4, h4⟩ | ⟨r4, h4⟩
  rotate_left
  · rw [readRecord, St.bind_of_ok (io_ok h1)] at h
    simp only [hty] at h
    rw [St.bind_of_ok (io_ok (s := { s with reader := r1 }) h2), St.bind_of_ok (io_ok (s := { s with reader := r2 }) h3),
      St.bind_of_err (io_err (s := { s with reader := r3 }) h4)] at h
    cases h
    obtain ⟨_, p, hp, hst⟩ := readBeU16_stops h4
    refine ⟨.stops ([ty.toU8] ++ ([a] ++ ([b] ++ p))) _ ⟨by simpa using type_mem ty, Or.inl ?_⟩ ?_, rfl, rfl, rfl, rfl⟩
    · simp only [List.length_append, List.length_cons, List.length_nil]; omega
    · rw [hs1, hs2, hs3]
      exact hst.prepend.prepend.prepend
  have hs4 := Reader.readBeU16_inv h4
  have hstream : s.reader.stream = ofBytes ([ty.toU8, a, b] ++ beBytes 2 len.toNat) ++ r4.stream := by
    rw [hs1, hs2, hs3, hs4]; simp [ofBytes]
  have hE : ENC_RECORD_MAX_LEN = 18432 := rfl
  by_cases hlen : len.toNat > ENC_RECORD_MAX_LEN
  · rw [readRecord, St.bind_of_ok (io_ok h1)] at h
    simp only [hty] at h
    rw [St.bind_of_ok (io_ok (s := { s with reader := r1 }) h2), St.bind_of_ok (io_ok (s := { s with reader := r2 }) h3),
      St.bind_of_ok (io_ok (s := { s with reader := r3 }) h4), if_pos hlen] at h
    cases h
    exact ⟨.announced ty.toU8 a b len.toNat _ (type_mem ty) (by omega) len.toNat_lt hstream, rfl, rfl, rfl, rfl⟩
  rcases Reader.readExact_total len.toNat r4 with ⟨f, r5, h5⟩ | ⟨r5, h5⟩
  rotate_left
  · rw [readRecord, St.bind_of_ok (io_ok h1)] at h
    simp only [hty] at h
    rw [St.bind_of_ok (io_ok (s := { s with reader := r1 }) h2), St.bind_of_ok (io_ok (s := { s with reader := r2 }) h3),
      St.bind_of_ok (io_ok (s := { s with reader := r3 }) h4), if_neg hlen, St.bind_of_err (io_err (s := { s with reader := r4 }) h5)] at h
    cases h
    obtain ⟨_, p, hp, hst⟩ := readExact_stops h5
    have hn : beNat (((([ty.toU8, a, b] ++ beBytes 2 len.toNat) ++ p).drop 3).take 2) = len.toNat := by
      have : (([ty.toU8, a, b] ++ beBytes 2 len.toNat) ++ p).drop 3 = beBytes 2 len.toNat ++ p := by simp
      rw [this, List.take_left' (by simp), beNat_beBytes]
      exact Nat.mod_eq_of_lt len.toNat_lt
    refine ⟨.stops (([ty.toU8, a, b] ++ beBytes 2 len.toNat) ++ p) _ ⟨by simpa using type_mem ty, Or.inr ?_⟩ ?_, rfl, rfl, rfl, rfl⟩
    · rw [hn]
      simp only [List.length_append, List.length_cons, List.length_nil, beBytes_length]
      omega
    · rw [hstream]
      exact hst.prepend
  obtain ⟨hfl, hs5⟩ := Reader.readExact_inv h5
  have hfull : s.reader.stream = ofBytes (recordBytes ty.toU8 a b f) ++ r5.stream := by
    rw [hstream, hs5, recordBytes, hfl]
    simp [ofBytes]
  rw [readRecord, St.bind_of_ok (io_ok h1)] at h
  simp only [hty] at h
  rw [St.bind_of_ok (io_ok (s := { s with reader := r1 }) h2), St.bind_of_ok (io_ok (s := { s with reader := r2 }) h3),
    St.bind_of_ok (io_ok (s := { s with reader := r3 }) h4), if_neg hlen, St.bind_of_ok (io_ok (s := { s with reader := r4 }) h5)] at h
  have h6 : (finish m ty a b f).run { s with reader := r5 } = (.err k, s') := h
  rw [finish_run] at h6
  rw [unprotect_congr (s := { s with reader := r5 }) (t := s) rfl rfl rfl] at h6
  cases hu : s.unprotect ty a b f with
  | ok rec =>
    rw [hu] at h6
    rcases bump_cases m { s with reader := r5 } with e | ⟨e, _⟩ <;> · simp only [e] at h6; cases h6
  | err k' =>
    rw [hu] at h6
    cases h6
    exact ⟨.refused ty a b f _ _ (by omega) hfull hu, rfl, rfl, rfl, rfl⟩
  | panic => rw [hu] at h6; cases h6
  | diverge => rw [hu] at h6; cases h6

/-- In clear, a record is refused because its fragment is longer than `2^14`. -/
theorem refused_clear {s : TlsReader} {ty : ContentType} {a b : UInt8} {f : Bytes} {k : TlsErrorKind} (h : s.unprotect ty a b f = .err k) (hd : s.decryptor = none) :
    k = .RecordOverflow ∧ 2 ^ 14 < f.length := by
  simp only [unprotect, hd] at h
  split at h
  · rename_i hl
    cases h
    exact ⟨rfl, by simpa [RECORD_MAX_LEN] using hl⟩
  · rename_i hl
    rw [Record.new, if_neg hl] at h
    cases h

/-- With a key, because it does not open. -/
theorem refused_keyed {s : TlsReader} {ty : ContentType} {a b : UInt8} {f : Bytes} {k : TlsErrorKind} {m : Mode} {key iv : Bytes} (h : s.unprotect ty a b f = .err k)
    (hd : s.decryptor = some (.chacha m key)) (hk : key.length = 32) (hi : s.iv = some iv) (hl : iv.length = 12) (hf : f.length ≤ 18432) :
    k = .BadRecordMac ∧ Spec.Aead.openMsg key (recordNonce iv s.readCount.toNat) (recordAad s.readCount.toNat ty.toU8 a b (f.length - 16)) f = none := by
  have hmac : (Decryptor.chacha m key).macLen = 16 := rfl
  have hnl : s.nonce.length = 12 := by rw [TlsReader.nonce_eq, nonceFor_length]
  have hn : s.nonce = recordNonce iv s.readCount.toNat := by rw [TlsReader.nonce_eq, hi, nonceFor, xorIv_spec _ _ hl]
  simp only [unprotect, hd, hmac] at h
  split at h
  · rename_i hs
    cases h
    exact ⟨rfl, by rw [Spec.Aead.openMsg, if_pos hs]⟩
  · have hdec : (Decryptor.chacha m key).decrypt s.nonce f (s.ad ty a b (f.length - 16)) = Aead.decrypt m key s.nonce f (s.ad ty a b (f.length - 16)) := rfl
    rw [hdec, C39_decrypt_is_rfc8439 m key _ _ _ hk hnl (by omega), hn, TlsReader.ad_eq] at h
    cases ho : Spec.Aead.openMsg key (recordNonce iv s.readCount.toNat) (recordAad s.readCount.toNat ty.toU8 a b (f.length - 16)) f with
    | none =>
      rw [ho] at h
      cases h
      exact ⟨rfl, rfl⟩
    | some d =>
      rw [ho] at h
      simp only [Res.bind_ok] at h
      split at h
      · cases h
      · rename_i hl
        rw [Record.new, if_neg hl] at h
        cases h

/-- The bytes do not make a whole handshake message: not its header, or not the body that the header announces. -/
def MessageCut (buf : Bytes) : Prop := buf.length < 4 ∨ buf.length < 4 + beNat ((buf.drop 1).take 3)

theorem getMessage_cut {buf buf' : HandshakeBuffer} (h : HandshakeBuffer.getMessage.run buf = (.ok none, buf')) : MessageCut buf.buf := by
  simp only [HandshakeBuffer.getMessage] at h
  split at h
  · left; assumption
  · split at h
    · right; omega
    · split at h <;> cases h

theorem getMessage_err {buf buf' : HandshakeBuffer} {k : TlsErrorKind} (h : HandshakeBuffer.getMessage.run buf = (.err k, buf')) :
    ∃ ty body, body.length < 2 ^ 24 ∧ buf.buf = handshakeBytes ty body ++ buf'.buf ∧ BadBody ty body k := by
  simp only [HandshakeBuffer.getMessage] at h
  split at h
  · cases h
  · rename_i hl
    split at h
    · cases h
    · rename_i hw
      obtain ⟨ty, t, e⟩ : ∃ ty t, buf.buf = ty :: t := by
        cases hb : buf.buf with
        | nil => rw [hb] at hl; simp at hl
        | cons ty t => exact ⟨ty, t, rfl⟩
      rw [e] at hl hw h
      simp only [List.length_cons, List.drop_succ_cons, List.drop_zero] at hl hw h
      have h3 : (t.take 3).length = 3 := by rw [List.length_take]; omega
      have hbd : (beNat (t.take 3)) < 2 ^ 24 := by have := beNat_lt (t.take 3); rw [h3] at this; exact this
      have htl : beNat (t.take 3) + 3 ≤ t.length := by omega
      obtain ⟨body, hb⟩ : ∃ body, body = (t.drop 3).take (beNat (t.take 3)) := ⟨_, rfl⟩
      have hbl : body.length = beNat (t.take 3) := by rw [hb, List.length_take, List.length_drop]; omega
      have ht : (ty :: t).take (beNat (t.take 3) + 4) = ty :: (t.take 3 ++ body) := by
        rw [show beNat (t.take 3) + 4 = (3 + beNat (t.take 3)) + 1 by omega, List.take_succ_cons, List.take_add, hb]
      rw [ht] at h
      split at h
      · cases h
      · rename_i k' hk
        cases h
        refine ⟨ty, body, by omega, ?_, handshakeRead_err h3 hk⟩
        rw [e]
        have : handshakeBytes ty body = (ty :: t).take (beNat (t.take 3) + 4) := by
          rw [ht, handshakeBytes, hbl]
          congr 1
          congr 1
          have := beBytes_beNat (t.take 3)
          rwa [h3] at this
        rw [this]
        exact (List.take_append_drop _ _).symm
      · cases h
      · cases h

/-- A record that is no message: a ChangeCipherSpec record that is not the one byte 1, an alert that is not a known level and description, an empty handshake record. -/
def NoMessage (r : Record) : Prop :=
  (r.contentType = .ChangeCipherSpecTy ∧ r.fragment ≠ [1]) ∨
  (r.contentType = .AlertTy ∧ ∀ (level : AlertLevel) (desc : AlertDescription), ¬ [levelNumber level, alertNumber desc] <+: r.fragment) ∨
  (r.contentType = .HandshakeTy ∧ r.fragment = [])

/-- Why no message is delivered: what is reported, and what is left of the stream. Records may have been taken before, which carry the beginning of a message. -/
inductive BadMessage (s : TlsReader) : TlsErrorKind → List Sym → Prop
  | record {s1 k l} (recs : List Record) : Took s recs s1 → Filled recs → MessageCut (s.handshakeBuffer.buf ++ frags recs) → BadRecord s1 k l → BadMessage s k l
  | noMessage {s1} (recs : List Record) (r : Record) : Took s (recs ++ [r]) s1 → Filled recs → MessageCut (s.handshakeBuffer.buf ++ frags recs) → NoMessage r →
      BadMessage s .UnexpectedMessage s1.reader.stream
  | body {s1 k} (recs : List Record) (ty : UInt8) (body rest : Bytes) : Took s recs s1 → Filled recs → body.length < 2 ^ 24 →
      s.handshakeBuffer.buf ++ frags recs = handshakeBytes ty body ++ rest → BadBody ty body k → BadMessage s k s1.reader.stream

theorem BadMessage.cons {s s1 : TlsReader} {k : TlsErrorKind} {l : List Sym} {rec : Record} (ht : Took s [rec] s1) (hf : rec.contentType = .HandshakeTy ∧ rec.fragment ≠ [])
    (hb : s1.handshakeBuffer.buf = s.handshakeBuffer.buf ++ rec.fragment) (h : BadMessage s1 k l) : BadMessage s k l := by
  have hfill : ∀ {recs}, Filled recs → Filled (rec :: recs) := by
    intro recs hr r hm
    rcases List.mem_cons.mp hm with rfl | hm
    · exact hf
    · exact hr r hm
  have hbuf : ∀ recs, s.handshakeBuffer.buf ++ frags (rec :: recs) = s1.handshakeBuffer.buf ++ frags recs := by
    intro recs
    rw [hb]
    simp [frags]
  cases h with
  | record recs h1 h2 h3 h4 => exact .record (rec :: recs) (ht.trans h1) (hfill h2) (by rw [hbuf]; exact h3) h4
  | noMessage recs r h1 h2 h3 h4 => exact .noMessage (rec :: recs) r (ht.trans h1) (hfill h2) (by rw [hbuf]; exact h3) h4
  | body recs ty body rest h1 h2 h3 h4 h5 => exact .body (rec :: recs) ty body rest (ht.trans h1) (hfill h2) h3 (by rw [hbuf]; exact h4) h5

theorem ccs_err {f : Bytes} {k : TlsErrorKind} (h : ccsMessage f = .err k) : k = .UnexpectedMessage ∧ f ≠ [1] := by
  unfold ccsMessage at h
  split at h
  · rename_i hc
    cases h
    refine ⟨rfl, ?_⟩
    rintro rfl
    simp at hc
  · cases h

theorem alert_err {f : Bytes} {k : TlsErrorKind} (h : alertMessage f = .err k) :
    k = .UnexpectedMessage ∧ ∀ (level : AlertLevel) (desc : AlertDescription), ¬ [levelNumber level, alertNumber desc] <+: f := by
  have hk : k = .UnexpectedMessage := by
    unfold alertMessage at h
    split at h
    · cases h; rfl
    · split at h
      · cases h; rfl
      · simp only at h
        split at h
        · cases h
        · cases h; rfl
  refine ⟨hk, ?_⟩
  rintro level desc ⟨rest, rfl⟩
  have : alertMessage (levelNumber level :: alertNumber desc :: rest) = .err k := h
  rw [alertMessage_cons, (level_iff _ level).mpr rfl, (description_iff _ desc).mpr rfl] at this
  cases this

/-- A round that reports an error. -/
theorem messageStep_err {m : Mode} {s s' : TlsReader} {k : TlsErrorKind} (h : (messageStep m).run s = (.err k, s')) (hi : MessageCut s.handshakeBuffer.buf) :
    BadMessage s k s'.reader.stream := by
  rw [messageStep, St.bind_run] at h
  rcases hr : (readRecord m).run s with ⟨y, s1⟩
  rw [hr] at h
  have hfill : Filled [] := fun r hm => by cases hm
  cases y with
  | err k' =>
    simp only [Prod.mk.injEq, Res.err.injEq] at h
    obtain ⟨rfl, rfl⟩ := h
    exact .record [] (.nil rfl rfl rfl rfl) hfill (by simpa [frags] using hi) (readRecord_err hr).1
  | panic => cases h
  | diverge => cases h
  | ok rec =>
    simp only at h
    obtain ⟨ht, hb⟩ := readRecord_took hr
    have none' : k = .UnexpectedMessage → s' = s1 → NoMessage rec → BadMessage s k s'.reader.stream := by
      rintro rfl rfl hn
      exact .noMessage [] rec ht hfill (by simpa [frags] using hi) hn
    cases hty : rec.contentType with
    | ChangeCipherSpecTy =>
      rw [hty] at h
      simp only [St.bind_run, St.lift_run] at h
      cases hc : ccsMessage rec.fragment with
      | ok a => rw [hc] at h; cases h
      | err k' =>
        rw [hc] at h
        cases h
        exact none' (ccs_err hc).1 rfl (Or.inl ⟨hty, (ccs_err hc).2⟩)
      | panic => rw [hc] at h; cases h
      | diverge => rw [hc] at h; cases h
    | AlertTy =>
      rw [hty] at h
      simp only [St.bind_run, St.lift_run] at h
      cases hc : alertMessage rec.fragment with
      | ok a => rw [hc] at h; cases h
      | err k' =>
        rw [hc] at h
        cases h
        exact none' (alert_err hc).1 rfl (Or.inr (Or.inl ⟨hty, (alert_err hc).2⟩))
      | panic => rw [hc] at h; cases h
      | diverge => rw [hc] at h; cases h
    | ApplicationDataTy => rw [hty] at h; cases h
    | HandshakeTy =>
      rw [hty] at h
      simp only at h
      split at h
      · rename_i he
        simp only [St.err_run, Prod.mk.injEq, Res.err.injEq] at h
        exact none' h.1.symm h.2.symm (Or.inr (Or.inr ⟨hty, List.isEmpty_iff.mp he⟩))
      · rename_i he
        rw [St.bind_run] at h
        simp only [onBuffer, St.zoom_run, HandshakeBuffer.addRecord, St.modify_run] at h
        rw [St.bind_run] at h
        simp only [St.zoom_run] at h
        rcases hg : HandshakeBuffer.getMessage.run ⟨s1.handshakeBuffer.buf ++ rec.fragment⟩ with ⟨y, b'⟩
        rw [hg] at h
        cases y with
        | ok o => cases o <;> cases h
        | err k' =>
          cases h
          obtain ⟨ty, body, h1, h2, h3⟩ := getMessage_err hg
          rw [hb] at h2
          refine .body (s1 := s1) [rec] ty body b'.buf ht ?_ h1 (by simpa [frags] using h2) h3
          intro r hm
          rw [List.mem_singleton.mp hm]
          exact ⟨hty, fun e => he (by rw [e]; rfl)⟩
        | panic => cases h
        | diverge => cases h

/-- A round that goes on took a handshake record that is not empty, and the message is still not complete. -/
theorem messageStep_none {m : Mode} {s s' : TlsReader} (h : (messageStep m).run s = (.ok none, s')) :
    ∃ rec, Took s [rec] s' ∧ (rec.contentType = .HandshakeTy ∧ rec.fragment ≠ []) ∧ s'.handshakeBuffer.buf = s.handshakeBuffer.buf ++ rec.fragment ∧
      MessageCut s'.handshakeBuffer.buf := by
  obtain ⟨rec, ht, h1, h2, h3⟩ := messageStep_inv h
  refine ⟨rec, ht, ⟨h1, ?_⟩, h2, getMessage_cut h3⟩
  obtain ⟨rec', s1, hr, hh⟩ := St.bind_eq_ok h
  have hs' : rec'.fragment ≠ [] ∧ s'.reader = s1.reader := by
    cases hty : rec'.contentType with
    | ChangeCipherSpecTy =>
      rw [hty] at hh
      obtain ⟨_, _, _, hh⟩ := St.bind_eq_ok hh
      cases hh
    | AlertTy =>
      rw [hty] at hh
      obtain ⟨_, _, _, hh⟩ := St.bind_eq_ok hh
      cases hh
    | ApplicationDataTy => rw [hty] at hh; cases hh
    | HandshakeTy =>
      rw [hty] at hh
      simp only at hh
      split at hh
      · cases hh
      · rename_i he
        refine ⟨fun e => he (by rw [e]; rfl), ?_⟩
        obtain ⟨_, s2, g1, hh⟩ := St.bind_eq_ok hh
        obtain ⟨o, s3, g2, hh⟩ := St.bind_eq_ok hh
        simp only [onBuffer, St.zoom_run, Prod.mk.injEq] at g1 g2
        have e3 : s' = s3 := by
          cases o with
          | some x => cases hh
          | none => cases hh; rfl
        rw [e3, ← g2.2, ← g1.2]
  have := Took.unique ht (readRecord_took hr).1 (by rw [hs'.2])
  cases this
  exact hs'.1

theorem messageLoop_err {m : Mode} (fuel : Nat) {s s' : TlsReader} {k : TlsErrorKind} (h : (messageLoop m fuel).run s = (.err k, s')) (hi : MessageCut s.handshakeBuffer.buf) :
    BadMessage s k s'.reader.stream := by
  induction fuel generalizing s with
  | zero => cases h
  | succ fuel ih =>
    rw [messageLoop, St.bind_run] at h
    rcases hs : (messageStep m).run s with ⟨y, s1⟩
    rw [hs] at h
    cases y with
    | ok o =>
      cases o with
      | some msg => cases h
      | none =>
        obtain ⟨rec, h1, h2, h3, h4⟩ := messageStep_none hs
        exact .cons h1 h2 h3 (ih h h4)
    | err k' =>
      cases h
      exact messageStep_err hs hi
    | panic => cases h
    | diverge => cases h

/-- A message that is not delivered. -/
theorem readMessage_err {m : Mode} {s s' : TlsReader} {k : TlsErrorKind} (h : (readMessage m).run s = (.err k, s')) : BadMessage s k s'.reader.stream := by
  rw [readMessage, St.bind_run] at h
  simp only [onBuffer, St.zoom_run] at h
  rcases hg : HandshakeBuffer.getMessage.run s.handshakeBuffer with ⟨x, b'⟩
  rw [hg] at h
  cases x with
  | ok o =>
    cases o with
    | some hh => cases h
    | none =>
      have := getMessage_none hg
      subst this
      have h' : (messageLoop m (s.reader.bytes + 1)).run s = (.err k, s') := h
      exact messageLoop_err _ h' (getMessage_cut hg)
  | err k' =>
    cases h
    obtain ⟨ty, body, h1, h2, h3⟩ := getMessage_err hg
    exact .body (s1 := s) [] ty body b'.buf (.nil rfl rfl rfl rfl) (fun r hm => by cases hm) h1 (by simpa [frags] using h2) h3
  | panic => cases h
  | diverge => cases h

end TlsReader

end Husk
