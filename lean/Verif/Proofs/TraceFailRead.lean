import Verif.Proofs.TraceFail
/-! Two clients that read the same bytes: in clear, and the first protected record (C114). -/

namespace Husk

open TSt Spec

namespace TlsReader

/-! ### In clear -/

/-- Two readers without keys that differ in the IV at most. -/
def Beside (s s' : TlsReader) : Prop := s.decryptor = none ∧ s' = { s with iv := s'.iv }

namespace Beside

variable {m : Mode} {s s' : TlsReader}

theorem clear' (h : Beside s s') : s'.decryptor = none := by rw [h.2]; exact h.1
theorem reader (h : Beside s s') : s'.reader = s.reader := by rw [h.2]
theorem count (h : Beside s s') : s'.readCount = s.readCount := by rw [h.2]
theorem buffer (h : Beside s s') : s'.handshakeBuffer = s.handshakeBuffer := by rw [h.2]

theorem self (x : TSt σ α) : Alike Eq Eq x x := fun s t h => by
  subst h
  refine ⟨rfl, ?_, rfl⟩
  cases (x.run s).2.1 <;> first | rfl | trivial

theorem self' (x : TSt σ α) (hx : ∀ s t, (x.run s).1 = (x.run t).1 ∧ (x.run s).2.1 = (x.run t).2.1) : Alike (fun _ _ => True) Eq x x := fun s t _ => by
  obtain ⟨h1, h2⟩ := hx s t
  refine ⟨h1, ?_, trivial⟩
  rw [h2]
  cases (x.run t).2.1 <;> first | rfl | trivial

theorem io (x : TSt Reader α) : Alike Beside Eq (ioT x) (ioT x) :=
  Alike.zoom (self x) (fun _ _ h => h.reader.symm) fun s t u v h e => by
    subst e
    exact ⟨h.1, by rw [h.2]⟩

theorem onBuffer (x : St HandshakeBuffer α) : Alike Beside Eq (quiet (TlsReader.onBuffer x)) (quiet (TlsReader.onBuffer x)) := Alike.quiet fun s s' h => by
  have e : (TlsReader.onBuffer x).run s' = ((x.run s.handshakeBuffer).1, { s' with handshakeBuffer := (x.run s.handshakeBuffer).2 }) := by
    rw [← h.buffer]; rfl
  rw [e]
  refine ⟨?_, h.1, by rw [h.2]; rfl⟩
  show SameOutcome Eq (x.run s.handshakeBuffer).1 (x.run s.handshakeBuffer).1
  cases (x.run s.handshakeBuffer).1 <;> first | rfl | trivial

theorem bump : Alike Beside Eq (quiet (TlsReader.bump m)) (quiet (TlsReader.bump m)) := Alike.quiet fun s s' h => by
  unfold TlsReader.bump
  dsimp only
  rw [h.count]
  cases addU64 m s.readCount 1 with
  | ok n => exact ⟨rfl, h.1, by rw [h.2]⟩
  | err k => exact ⟨rfl, h⟩
  | panic => exact ⟨trivial, h⟩
  | diverge => exact ⟨trivial, h⟩

theorem tr (x : Tr α) : Alike Beside Eq (ofTr x) (ofTr x) := Alike.ofTr rfl (by cases x.res <;> first | rfl | trivial)
theorem lift (x : Res α) : Alike Beside Eq (quiet (St.lift x)) (quiet (St.lift x)) := Alike.lift (by cases x <;> first | rfl | trivial)

theorem readRecord : Alike Beside Eq (readRecordT m none) (readRecordT m none) := by
  refine Alike.bind (io _) fun ty _ e => ?_
  subst e
  refine Alike.bind (Alike.see rfl) fun _ _ _ => ?_
  cases ContentType.ofU8 ty with
  | none => exact lift _
  | some ty =>
    refine Alike.bind (io _) fun a _ e => ?_
    subst e
    refine Alike.bind (io _) fun b _ e => ?_
    subst e
    refine Alike.bind (io _) fun n _ e => ?_
    subst e
    refine Alike.ite rfl (fun _ => lift _) fun _ => ?_
    refine Alike.bind (io _) fun f _ e => ?_
    subst e
    refine Alike.bind Alike.get fun _ _ _ => ?_
    refine Alike.bind (tr _) fun rec _ e => ?_
    subst e
    exact Alike.bind bump fun _ _ _ => Alike.pure rfl

theorem getMessage : Alike Beside Eq getMessageT getMessageT := by
  refine Alike.bind Alike.get fun s s' h => ?_
  rw [h.buffer]
  exact Alike.bind (Alike.see rfl) fun _ _ _ => onBuffer _

theorem step : Alike Beside Eq (messageStepT m none) (messageStepT m none) := by
  refine Alike.bind readRecord fun rec _ e => ?_
  subst e
  refine Alike.bind (Alike.see rfl) fun _ _ _ => ?_
  cases rec.contentType with
  | ChangeCipherSpecTy =>
    refine Alike.bind (Alike.see rfl) fun _ _ _ => Alike.bind (Alike.see rfl) fun _ _ _ => Alike.bind (lift _) fun msg _ e => ?_
    subst e
    exact Alike.pure rfl
  | AlertTy =>
    refine Alike.bind (tr _) fun msg _ e => ?_
    subst e
    exact Alike.pure rfl
  | HandshakeTy =>
    refine Alike.ite rfl (fun _ => lift _) fun _ => ?_
    refine Alike.bind (Alike.see rfl) fun _ _ _ => Alike.bind (onBuffer _) fun _ _ _ => Alike.bind getMessage fun o _ e => ?_
    subst e
    refine Alike.bind (Alike.see rfl) fun _ _ _ => ?_
    cases o <;> exact Alike.pure rfl
  | ApplicationDataTy => exact Alike.pure rfl

theorem loop (fuel : Nat) : Alike Beside Eq (messageLoopT m none fuel) (messageLoopT m none fuel) := by
  induction fuel with
  | zero => exact lift _
  | succ fuel ih =>
    refine Alike.bind step fun o _ e => ?_
    subst e
    cases o with
    | some msg => exact Alike.pure rfl
    | none => exact ih

theorem readMessage : Alike Beside Eq (readMessageT m none) (readMessageT m none) := by
  refine Alike.bind getMessage fun o _ e => ?_
  subst e
  cases o with
  | some msg => exact Alike.pure rfl
  | none =>
    refine Alike.bind Alike.get fun s s' h => ?_
    rw [h.reader]
    exact loop _

theorem readChange : Alike Beside Eq (readChangeCipherSpecT m none) (readChangeCipherSpecT m none) := by
  refine Alike.bind readMessage fun msg _ e => ?_
  subst e
  refine Alike.bind (Alike.see rfl) fun _ _ _ => ?_
  cases msg <;> exact lift _

end Beside

/-! ### The first protected record -/

/-- A protected record has been accepted (and there are not enough bytes to make the count overflow). -/
structure Past (k : Bytes) (s : TlsReader) : Prop where
  key : s.HasKey .release (some k)
  pos : 1 ≤ s.readCount.toNat
  fit : s.readCount.toNat + s.reader.bytes < 2 ^ 64

/-- A call that panicked or does not return, or after which a protected record has been accepted. -/
def Gone (k : Bytes) (o : Res α × TlsReader) : Prop := (o.1 = .panic ∨ o.1 = .diverge) ∨ Past k o.2

/-- One of two calls is gone, or they cannot be told apart. -/
def Unless (k k' : Bytes) (R : α → β → Prop) (x : TSt TlsReader α) (y : TSt TlsReader β) (s s' : TlsReader) : Prop :=
  Gone k (x.run s).2 ∨ Gone k' (y.run s').2 ∨ ((x.run s).1 = (y.run s').1 ∧ SameOutcome R (x.run s).2.1 (y.run s').2.1)

/-- A call that does not undo `Past`. -/
def KeepsPast (k : Bytes) (x : TSt TlsReader α) : Prop := ∀ s, Past k s → Past k (x.run s).2.2

namespace KeepsPast

variable {k : Bytes}

theorem bind {x : TSt TlsReader α} {f : α → TSt TlsReader β} (hx : KeepsPast k x) (hf : ∀ a, KeepsPast k (f a)) : KeepsPast k (x >>= f) := by
  intro s hs
  have h := hx s hs
  rw [bind_run]
  rcases hr : x.run s with ⟨t, r, s1⟩
  rw [hr] at h
  cases r with
  | ok a => exact hf a s1 h
  | err _ => exact h
  | panic => exact h
  | diverge => exact h

theorem pure (a : α) : KeepsPast k (Pure.pure a) := fun _ h => h
theorem see (o : Obs) : KeepsPast k (TSt.see o) := fun _ h => h
theorem get : KeepsPast k TSt.get := fun _ h => h
theorem lift (x : Res α) : KeepsPast k (quiet (St.lift x)) := fun _ h => h
theorem tr (x : Tr α) : KeepsPast k (ofTr x) := fun _ h => h
theorem onBuffer (x : St HandshakeBuffer α) : KeepsPast k (quiet (TlsReader.onBuffer x)) := fun _ h => ⟨h.key, h.pos, h.fit⟩
theorem ite {b : Bool} {x y : TSt TlsReader α} (hx : KeepsPast k x) (hy : KeepsPast k y) : KeepsPast k (TSt.test b >>= fun c => if c = true then x else y) := by
  cases b
  · exact hy
  · exact hx

end KeepsPast

/-- What reading a record does to the count and the bytes. -/
theorem readRecord_count (s : TlsReader) :
    (∃ x q, (readRecord .release).run s = (x, { s with reader := q }) ∧ (∀ r, x ≠ .ok r) ∧ q.bytes ≤ s.reader.bytes) ∨
    (∃ r q, (readRecord .release).run s = (.ok r, { s with reader := q, readCount := s.readCount + 1 }) ∧ q.bytes + 1 ≤ s.reader.bytes) := by
  have h := readRecord_outcome .release s
  rcases hr : (readRecord .release).run s with ⟨x, s1⟩
  rw [hr] at h
  have suf : ∀ {l : List Sym} {r r' : Reader}, r.stream = l ++ r'.stream → r'.bytes + countBytes l = r.bytes := by
    intro l r r' e
    rw [Reader.bytes_eq, Reader.bytes_eq, e, countBytes_append]
    omega
  generalize ho : (x, s1) = o at h
  cases h with
  | io r' hs =>
    cases ho
    exact Or.inl ⟨_, r', rfl, by simp, by rw [Reader.bytes_eq, Reader.bytes_eq]; exact countBytes_suffix hs⟩
  | badType n r' hn hs =>
    cases ho
    exact Or.inl ⟨_, r', rfl, by simp, by have := suf hs; omega⟩
  | tooLong ty a b n r' h1 h2 hs =>
    cases ho
    exact Or.inl ⟨_, r', rfl, by simp, by have := suf hs; omega⟩
  | full ty a b f r' hl hs =>
    have hq := suf hs
    have hpos : 1 ≤ countBytes (ofBytes (recordBytes ty.toU8 a b f)) := by
      simp [recordBytes, ofBytes, countBytes]
    have hfin : (finish .release ty a b f).run { s with reader := r' } =
        (St.lift (TlsReader.unprotect { s with reader := r' } ty a b f) >>= fun record => bump .release >>= fun _ => Pure.pure record).run { s with reader := r' } := rfl
    rcases hu : TlsReader.unprotect { s with reader := r' } ty a b f with rec | e | _ | _
    · right
      refine ⟨rec, r', ?_, by omega⟩
      rw [hfin, hu]
      rcases bump_cases .release { s with reader := r' } with hb | ⟨hb, -⟩
      · show (bump .release >>= fun _ => Pure.pure rec).run { s with reader := r' } = _
        rw [St.bind_of_ok hb]
        rfl
      · exfalso
        unfold bump at hb
        have hadd : ∃ v, addU64 .release s.readCount 1 = .ok v := by unfold addU64; split <;> exact ⟨_, rfl⟩
        obtain ⟨v, hv⟩ := hadd
        dsimp only at hb
        rw [hv] at hb
        cases hb
    · exact Or.inl ⟨.err e, r', by rw [hfin, hu]; rfl, by simp, by omega⟩
    · exact Or.inl ⟨.panic, r', by rw [hfin, hu]; rfl, by simp, by omega⟩
    · exact Or.inl ⟨.diverge, r', by rw [hfin, hu]; rfl, by simp, by omega⟩

/-- After a record the count has grown, if there were not enough bytes to make it overflow. -/
theorem readRecord_past {k : Bytes} {s : TlsReader} (hk : s.HasKey .release (some k)) (hf : s.readCount.toNat + s.reader.bytes < 2 ^ 64) {r : Record} {s1 : TlsReader}
    (h : (readRecord .release).run s = (.ok r, s1)) : Past k s1 := by
  rcases readRecord_count s with ⟨x, q, e, hx, -⟩ | ⟨r', q, e, hq⟩
  · rw [e] at h
    exact absurd (congrArg Prod.fst h) (hx r)
  · rw [e] at h
    cases h
    have h1 : (s.readCount + 1).toNat = s.readCount.toNat + 1 := by
      rw [UInt64.toNat_add]
      exact Nat.mod_eq_of_lt (by show s.readCount.toNat + 1 < 2 ^ 64; omega)
    refine ⟨hk, ?_, ?_⟩
    · show 1 ≤ (s.readCount + 1).toNat
      omega
    · show (s.readCount + 1).toNat + q.bytes < 2 ^ 64
      omega

theorem readRecordT_keeps {k : Bytes} : KeepsPast k (readRecordT .release (some k)) := by
  intro s hs
  obtain ⟨e, hk⟩ := readRecordT_agrees s hs.key
  rw [e]
  rcases readRecord_count s with ⟨_, q, h, -, hq⟩ | ⟨r, q, h, hq⟩
  · rw [h]; exact ⟨hs.key, hs.pos, Nat.lt_of_le_of_lt (Nat.add_le_add_left hq _) hs.fit⟩
  · rw [h]; exact readRecord_past hs.key hs.fit h

theorem getMessageT_keeps {k : Bytes} : KeepsPast k getMessageT := KeepsPast.bind .get fun _ => KeepsPast.bind (.see _) fun _ => .onBuffer _

/-- The rest of the body of the loop. -/
theorem stepRest_keeps {k : Bytes} (record : Record) : KeepsPast k (do
    see (.index record.contentType.toU8.toNat)
    match record.contentType with
    | .ChangeCipherSpecTy => do
      see (.branch (record.fragment.length ≠ 1))
      see (.branch (record.fragment.getD 0 0 ≠ 1))
      let msg ← quiet (St.lift (ccsMessage record.fragment))
      return some msg
    | .AlertTy => do
      let msg ← ofTr (alertMessageT record.fragment)
      return some msg
    | .HandshakeTy => do
      if ← test record.fragment.isEmpty then quiet (St.err .UnexpectedMessage)
      else do
        see (.size record.fragment.length)
        quiet (onBuffer (HandshakeBuffer.addRecord record.fragment))
        let msg ← getMessageT
        see (.branch msg.isSome)
        match msg with
        | some h => return some (.HandshakeMessage h)
        | none => return none
    | .ApplicationDataTy => return some (.ApplicationDataMessage record.fragment)) := by
  refine .bind (.see _) fun _ => ?_
  cases record.contentType with
  | ChangeCipherSpecTy => exact .bind (.see _) fun _ => .bind (.see _) fun _ => .bind (.lift _) fun _ => .pure _
  | AlertTy => exact .bind (.tr _) fun _ => .pure _
  | HandshakeTy =>
    refine .ite (.lift _) (.bind (.see _) fun _ => .bind (.onBuffer _) fun _ => .bind getMessageT_keeps fun o => .bind (.see _) fun _ => ?_)
    cases o <;> exact .pure _
  | ApplicationDataTy => exact .pure _

theorem messageLoopT_keeps {k : Bytes} (fuel : Nat) : KeepsPast k (messageLoopT .release (some k) fuel) := by
  induction fuel with
  | zero => exact .lift _
  | succ fuel ih =>
    refine .bind (.bind readRecordT_keeps stepRest_keeps) fun o => ?_
    cases o with
    | some msg => exact .pure _
    | none => exact ih

/-! Two calls, unless one is gone -/

variable {k k' : Bytes}

theorem Unless.bind {R : α → β → Prop} {S : γ → δ → Prop} {x : TSt TlsReader α} {y : TSt TlsReader β} {f : α → TSt TlsReader γ} {g : β → TSt TlsReader δ} {s s' : TlsReader}
    (h : Unless k k' R x y s s') (keep : ∀ a, KeepsPast k (f a)) (keep' : ∀ b, KeepsPast k' (g b))
    (hf : ∀ a b s1 s1', R a b → (x.run s).2 = (.ok a, s1) → (y.run s').2 = (.ok b, s1') → Unless k k' S (f a) (g b) s1 s1') : Unless k k' S (x >>= f) (y >>= g) s s' := by
  have gone : ∀ {k : Bytes} {α γ : Type} {x : TSt TlsReader α} {f : α → TSt TlsReader γ} {s : TlsReader}, (∀ a, KeepsPast k (f a)) → Gone k (x.run s).2 → Gone k ((x >>= f).run s).2 := by
    intro k α γ x f s keep h
    rw [bind_run]
    rcases hx : x.run s with ⟨t, r, s1⟩
    rw [hx] at h
    cases r with
    | ok a =>
      rcases h with (h | h) | h
      · cases h
      · cases h
      · exact Or.inr (keep a s1 h)
    | err e =>
      rcases h with (h | h) | h
      · cases h
      · cases h
      · exact Or.inr h
    | panic => exact Or.inl (Or.inl rfl)
    | diverge => exact Or.inl (Or.inr rfl)
  rcases h with h | h | ⟨h1, h2⟩
  · exact Or.inl (gone keep h)
  · exact Or.inr (Or.inl (gone keep' h))
  · unfold Unless
    rw [bind_run, bind_run]
    rcases hx : x.run s with ⟨u, r, s1⟩
    rcases hy : y.run s' with ⟨u', r', s1'⟩
    rw [hx, hy] at h1 h2
    have h1 : u = u' := h1
    subst h1
    cases r <;> cases r' <;> first | exact absurd h2 id | skip
    · rename_i a b
      rcases hf a b s1 s1' h2 (by rw [hx]) (by rw [hy]) with h | h | ⟨g1, g2⟩
      · exact Or.inl h
      · exact Or.inr (Or.inl h)
      · exact Or.inr (Or.inr ⟨congrArg (u ++ ·) g1, g2⟩)
    · exact Or.inr (Or.inr ⟨rfl, h2⟩)
    · exact Or.inr (Or.inr ⟨rfl, trivial⟩)
    · exact Or.inr (Or.inr ⟨rfl, trivial⟩)

/-- Two readers that wait for their first protected record, with the same bytes to come. -/
structure Awaiting (k k' : Bytes) (s s' : TlsReader) : Prop where
  key : s.HasKey .release (some k)
  key' : s'.HasKey .release (some k')
  len : k.length = 32
  len' : k'.length = 32
  ivs : ∃ iv iv', s.iv = some iv ∧ s'.iv = some iv' ∧ iv.length = 12 ∧ iv'.length = 12
  count : s.readCount = 0
  count' : s'.readCount = 0
  reader : s.reader = s'.reader
  buffer : s.handshakeBuffer = s'.handshakeBuffer

/-- A refusal, in detail. -/
theorem unprotectT_err {s : TlsReader} {iv : Bytes} (hk : k.length = 32) (hi : s.iv = some iv) (ty : ContentType) (a b : UInt8) {f : Bytes} (hb : f.length ≤ ENC_RECORD_MAX_LEN)
    (h16 : ¬ f.length < Aead.MAC_LEN) {e : TlsErrorKind} (hr : (unprotectT .release (some k) s ty a b f).res = .err e) :
    e = .BadRecordMac ∧ ∃ n ad, n.length = 12 ∧ ad.length = 13 ∧ Aead.decrypt .release k n f ad = .err .BadRecordMac ∧
      (unprotectT .release (some k) s ty a b f).trace = [.branch true, .branch false, .size 8, .size 5] ++ ((nonceT s.readCount (some iv)).trace ++ (Aead.decryptT .release k n f ad).trace) := by
  have hE : ENC_RECORD_MAX_LEN = 18432 := rfl
  obtain ⟨n, hn, ln⟩ := nonceT_ok s.readCount iv
  obtain ⟨ad, ha, la⟩ : ∃ ad, adT s.readCount ty.toU8 a b (f.length - Aead.MAC_LEN) = ⟨[.size 8, .size 5], .ok ad⟩ ∧ ad.length = 13 := ⟨_, rfl, by simp [u64Be]⟩
  have bok : ∀ {α β : Type} (x : Tr α) (g : α → Tr β) (v : α), x.res = .ok v → x >>= g = ⟨x.trace ++ (g v).trace, (g v).res⟩ := by
    intro α β x g v hx
    show Tr.bind x g = _
    unfold Tr.bind
    rw [hx]
  have ex : unprotectT .release (some k) s ty a b f = ⟨[.branch true, .branch false, .size 8, .size 5] ++ ((nonceT s.readCount (some iv)).trace ++
      (Aead.decryptT .release k n f ad >>= fun data => Tr.test (data.length > RECORD_MAX_LEN) >>= fun c => if c = true then Tr.lift .panic else Record.newT ty a b data).trace),
      (Aead.decryptT .release k n f ad >>= fun data => Tr.test (data.length > RECORD_MAX_LEN) >>= fun c => if c = true then Tr.lift .panic else Record.newT ty a b data).res⟩ := by
    unfold unprotectT
    dsimp only
    rw [bok (Tr.see (.branch true)) _ () rfl, bok (Tr.test _) _ false (by rw [Tr.test_res, decide_eq_false h16]), if_neg (by simp), ha, bok _ _ ad rfl, hi, bok _ _ n hn,
      decide_eq_false h16]
    simp only [List.append_assoc]
    rfl
  rw [ex] at hr ⊢
  have hr : (Aead.decryptT .release k n f ad >>= fun data => Tr.test (data.length > RECORD_MAX_LEN) >>= fun c => if c = true then Tr.lift .panic else Record.newT ty a b data).res = .err e := hr
  have hd := Aead.decryptT_res .release k n f ad
  have hs := C39_decrypt_is_rfc8439 .release k n f ad hk ln (by omega)
  cases ho : Spec.Aead.openMsg k n ad f with
  | none =>
    rw [ho] at hs
    have hx : (Aead.decryptT .release k n f ad).res = .err .BadRecordMac := by rw [hd]; exact hs
    rw [Tr.bind_res, hx] at hr
    cases hr
    refine ⟨rfl, n, ad, ln, la, hs, ?_⟩
    show _ ++ (_ ++ (Tr.bind _ _).trace) = _
    unfold Tr.bind
    rw [hx]
  | some p =>
    exfalso
    rw [ho] at hs
    have hx : (Aead.decryptT .release k n f ad).res = .ok p := by rw [hd]; exact hs
    rw [Tr.bind_res, hx] at hr
    revert hr
    simp only [Res.bind_ok, Tr.bind_res, Tr.test_res, Record.newT]
    split
    · simp
    · simp only [Tr.bind_res, Tr.test_res, Res.bind_ok]
      split <;> simp

/-- A record that neither accepts shows the same. -/
theorem unprotectT_refused {s s' : TlsReader} (h : Awaiting k k' s s') (ty : ContentType) (a b : UInt8) {f : Bytes} (hb : f.length ≤ ENC_RECORD_MAX_LEN) {e e' : TlsErrorKind}
    (hr : (unprotectT .release (some k) s ty a b f).res = .err e) (hr' : (unprotectT .release (some k') s' ty a b f).res = .err e') :
    (unprotectT .release (some k) s ty a b f).trace = (unprotectT .release (some k') s' ty a b f).trace ∧ e = e' := by
  have hE : ENC_RECORD_MAX_LEN = 18432 := rfl
  by_cases h16 : f.length < Aead.MAC_LEN
  · have ex : ∀ (k : Bytes) (s : TlsReader), unprotectT .release (some k) s ty a b f = ⟨[.branch true, .branch true], .err .BadRecordMac⟩ := by
      intro k s
      unfold unprotectT
      dsimp only
      rw [decide_eq_true h16]
      rfl
    rw [ex] at hr hr' ⊢
    rw [ex]
    cases hr; cases hr'
    exact ⟨rfl, rfl⟩
  · obtain ⟨iv, iv', hi, hi', li, li'⟩ := h.ivs
    obtain ⟨e1, n, ad, ln, la, hd, ht⟩ := unprotectT_err h.len hi ty a b hb h16 hr
    obtain ⟨e2, n', ad', ln', la', hd', ht'⟩ := unprotectT_err h.len' hi' ty a b hb h16 hr'
    obtain ⟨t, hv⟩ := C86_decrypt_shows_the_verdict .release f.length 13 (by omega)
    obtain ⟨v, h1, h2⟩ := hv k n f ad h.len ln rfl la
    obtain ⟨v', h1', h2'⟩ := hv k' n' f ad' h.len' ln' rfl la'
    rw [ht, ht', h1, h1', h2.mpr hd, h2'.mpr hd', h.count, h.count', nonceT_trace _ (li.trans li'.symm)]
    exact ⟨rfl, e1.trans e2.symm⟩

/-- One of two calls ends otherwise than with an error, or they cannot be told apart; in the latter case neither gives a value. -/
def BothFail (x : TSt TlsReader α) (y : TSt TlsReader β) (s s' : TlsReader) : Prop :=
  (∀ e, (x.run s).2.1 ≠ .err e) ∨ (∀ e, (y.run s').2.1 ≠ .err e) ∨ ((x.run s).1 = (y.run s').1 ∧ SameOutcome (fun _ _ => False) (x.run s).2.1 (y.run s').2.1)

theorem BothFail.bind {P : TlsReader → TlsReader → Prop} {R : α → β → Prop} {x : TSt TlsReader α} {y : TSt TlsReader β} {f : α → TSt TlsReader γ} {g : β → TSt TlsReader δ}
    {s s' : TlsReader} (h : AlikeAt P R x y s s') (hf : ∀ a b s1 s1', R a b → P s1 s1' → BothFail (f a) (g b) s1 s1') : BothFail (x >>= f) (y >>= g) s s' := by
  unfold BothFail
  obtain ⟨h1, h2, h3⟩ := h
  rw [bind_run, bind_run]
  rcases hx : x.run s with ⟨u, r, s1⟩
  rcases hy : y.run s' with ⟨u', r', s1'⟩
  rw [hx, hy] at h1 h2 h3
  have h1 : u = u' := h1
  subst h1
  cases r <;> cases r' <;> first | exact absurd h2 id | skip
  · rename_i a b
    rcases hf a b s1 s1' h2 h3 with h | h | ⟨g1, g2⟩
    · exact Or.inl h
    · exact Or.inr (Or.inl h)
    · exact Or.inr (Or.inr ⟨congrArg (u ++ ·) g1, g2⟩)
  · exact Or.inr (Or.inr ⟨rfl, h2⟩)
  · exact Or.inr (Or.inr ⟨rfl, trivial⟩)
  · exact Or.inr (Or.inr ⟨rfl, trivial⟩)

namespace Awaiting

variable {s s' : TlsReader}

theorem io (x : TSt Reader α) : Alike (Awaiting k k') Eq (ioT x) (ioT x) :=
  Alike.zoom (Beside.self x) (fun _ _ h => h.reader) fun s t u v h e => { h with reader := e }

theorem onBuffer (x : St HandshakeBuffer α) : Alike (Awaiting k k') Eq (quiet (TlsReader.onBuffer x)) (quiet (TlsReader.onBuffer x)) := Alike.quiet fun s s' h => by
  have e : (TlsReader.onBuffer x).run s' = ((x.run s.handshakeBuffer).1, { s' with handshakeBuffer := (x.run s.handshakeBuffer).2 }) := by
    rw [h.buffer]; rfl
  rw [e]
  refine ⟨?_, { h with buffer := rfl }⟩
  show SameOutcome Eq (x.run s.handshakeBuffer).1 (x.run s.handshakeBuffer).1
  cases (x.run s.handshakeBuffer).1 <;> first | rfl | trivial

theorem getMessage : Alike (Awaiting k k') Eq getMessageT getMessageT := by
  refine Alike.bind Alike.get fun s s' h => ?_
  rw [h.buffer]
  exact Alike.bind (Alike.see rfl) fun _ _ _ => onBuffer _

/-- The first protected record, refused by both. -/
theorem readRecord_fail (h : Awaiting k k' s s') : BothFail (readRecordT .release (some k)) (readRecordT .release (some k')) s s' := by
  have stop : ∀ (e : TlsErrorKind) (s s' : TlsReader), BothFail (quiet (St.err e) : TSt TlsReader Record) (quiet (St.err e) : TSt TlsReader Record) s s' :=
    fun e s s' => Or.inr (Or.inr ⟨rfl, rfl⟩)
  refine BothFail.bind (io _ s s' h) fun ty _ s s' e h => ?_
  subst e
  refine BothFail.bind (Alike.see rfl s s' h) fun _ _ s s' _ h => ?_
  cases ContentType.ofU8 ty with
  | none => exact stop _ _ _
  | some ty =>
    refine BothFail.bind (io _ s s' h) fun a _ s s' e h => ?_
    subst e
    refine BothFail.bind (io _ s s' h) fun b _ s s' e h => ?_
    subst e
    refine BothFail.bind (io _ s s' h) fun n _ s s' e h => ?_
    subst e
    refine BothFail.bind (P := fun s s' => Awaiting k k' s s') (R := fun c c' => c = decide (n.toNat > ENC_RECORD_MAX_LEN) ∧ c' = c) ⟨rfl, ⟨rfl, rfl⟩, h⟩ fun c c' s s' e h => ?_
    obtain ⟨e, e'⟩ := e
    subst e'
    cases c' with
    | true => exact stop _ _ _
    | false =>
      have hn : n.toNat ≤ ENC_RECORD_MAX_LEN := by
        have := of_decide_eq_false e.symm
        omega
      have hl : Alike (Awaiting k k') (fun f f' => f = f' ∧ f.length ≤ ENC_RECORD_MAX_LEN) (ioT (Reader.readExactT n.toNat)) (ioT (Reader.readExactT n.toNat)) := by
        intro s s' h
        obtain ⟨h1, h2, h3⟩ := io (Reader.readExactT n.toNat) s s' h
        refine ⟨h1, ?_, h3⟩
        have ag := (ioT_agrees (m := .release) (Reader.readExactT_agrees n.toNat) s h.key).1
        generalize (ioT (Reader.readExactT n.toNat)).run s = o at ag h2 ⊢
        generalize (ioT (Reader.readExactT n.toNat)).run s' = o' at h2 ⊢
        rcases o with ⟨u, r, q⟩
        rcases o' with ⟨u', r', q'⟩
        cases r <;> cases r' <;> first | exact h2 | skip
        rename_i f f'
        refine ⟨h2, ?_⟩
        have ag : (Res.ok f, q) = (TlsReader.io (Reader.readExact n.toNat)).run s := ag
        obtain ⟨q1, e1, -⟩ := Reader.readExact_spec n.toNat s.reader
        have e2 : (TlsReader.io (Reader.readExact n.toNat)).run s = (((Reader.readExact n.toNat).run s.reader).1, { s with reader := ((Reader.readExact n.toNat).run s.reader).2 }) := rfl
        rw [e2, e1] at ag
        have ag := congrArg Prod.fst ag
        rcases et : takeBytes n.toNat s.reader.stream with ⟨_ | bs, l⟩
        · rw [et] at ag; cases ag
        · rw [et] at ag
          have : f = bs := by simpa [Reader.resOf] using ag
          rw [this, takeBytes_length et]
          exact hn
      refine BothFail.bind (hl s s' h) fun f f' s s' e h => ?_
      obtain ⟨rfl, hf⟩ := e
      refine BothFail.bind (P := Awaiting k k') (R := fun a b => a = s ∧ b = s') ⟨rfl, ⟨rfl, rfl⟩, h⟩ fun a1 b1 s1 s1' e h1 => ?_
      obtain ⟨rfl, rfl⟩ := e
      have fin : ∀ (key : Bytes) (s s1 : TlsReader), (∃ rec, (unprotectT .release (some key) s ty a b f).res = .ok rec) ∨ (unprotectT .release (some key) s ty a b f).res = .panic ∨
          (unprotectT .release (some key) s ty a b f).res = .diverge →
          ∀ e, ((ofTr (unprotectT .release (some key) s ty a b f) >>= fun record => quiet (bump .release) >>= fun _ => (Pure.pure record : TSt TlsReader Record)).run s1).2.1 ≠ .err e := by
        intro key s s1 hu e
        rw [bind_run]
        have e0 : (ofTr (unprotectT .release (some key) s ty a b f) : TSt TlsReader Record).run s1 = ((unprotectT .release (some key) s ty a b f).trace, (unprotectT .release (some key) s ty a b f).res, s1) := rfl
        rw [e0]
        rcases hu with ⟨rec, hu⟩ | hu | hu
        · rw [hu]
          rcases bump_cases .release s1 with hb | ⟨hb, -⟩
          · show ((quiet (bump .release) >>= fun _ => (Pure.pure rec : TSt TlsReader Record)).run s1).2.1 ≠ _
            rw [bind_of_ok (t := []) (a := ()) (by rw [← hb]; rfl)]
            simp [Pure.pure]
          · show ((quiet (bump .release) >>= fun _ => (Pure.pure rec : TSt TlsReader Record)).run s1).2.1 ≠ _
            rw [bind_run]
            have e1 : (quiet (bump .release) : TSt TlsReader Unit).run s1 = ([], .panic, s1) := by rw [← hb]; rfl
            rw [e1]
            simp
        · rw [hu]; simp
        · rw [hu]; simp
      rcases hu : (unprotectT .release (some k) a1 ty a b f).res with rec | e | _ | _
      · exact Or.inl (fin k a1 s1 (Or.inl ⟨rec, hu⟩))
      · rcases hu' : (unprotectT .release (some k') b1 ty a b f).res with rec | e' | _ | _
        · exact Or.inr (Or.inl (fin k' b1 s1' (Or.inl ⟨rec, hu'⟩)))
        · obtain ⟨ht, he⟩ := unprotectT_refused h ty a b hf hu hu'
          refine BothFail.bind (P := fun _ _ => True) (R := fun _ _ => False) ⟨ht, ?_, trivial⟩ fun _ _ _ _ x _ => x.elim
          show SameOutcome _ (unprotectT .release (some k) a1 ty a b f).res (unprotectT .release (some k') b1 ty a b f).res
          rw [hu, hu']
          exact he
        · exact Or.inr (Or.inl (fin k' b1 s1' (Or.inr (Or.inl hu'))))
        · exact Or.inr (Or.inl (fin k' b1 s1' (Or.inr (Or.inr hu'))))
      · exact Or.inl (fin k a1 s1 (Or.inr (Or.inl hu)))
      · exact Or.inl (fin k a1 s1 (Or.inr (Or.inr hu)))

/-- Reading the first protected record: accepted by one, or refused by both. -/
theorem readRecord (h : Awaiting k k' s s') (hb : s.reader.bytes < 2 ^ 64) : Unless k k' (fun _ _ => False) (readRecordT .release (some k)) (readRecordT .release (some k')) s s' := by
  have one : ∀ {k : Bytes} {s : TlsReader}, s.HasKey .release (some k) → s.readCount = 0 → s.reader.bytes < 2 ^ 64 → (∀ e, ((readRecordT .release (some k)).run s).2.1 ≠ .err e) →
      Gone k ((readRecordT .release (some k)).run s).2 := by
    intro k s hk hc hb hn
    have ag := (readRecordT_agrees s hk).1
    rw [ag] at hn ⊢
    rcases hx : (TlsReader.readRecord .release).run s with ⟨x, s1⟩
    rw [hx] at hn
    cases x with
    | ok r => exact Or.inr (readRecord_past hk (by rw [hc]; simpa using hb) hx)
    | err e => exact absurd rfl (hn e)
    | panic => exact Or.inl (Or.inl rfl)
    | diverge => exact Or.inl (Or.inr rfl)
  rcases h.readRecord_fail with g | g | g
  · exact Or.inl (one h.key h.count hb g)
  · exact Or.inr (Or.inl (one h.key' h.count' (h.reader ▸ hb) g))
  · exact Or.inr (Or.inr g)

theorem step (h : Awaiting k k' s s') (hb : s.reader.bytes < 2 ^ 64) : Unless k k' (fun _ _ => False) (messageStepT .release (some k)) (messageStepT .release (some k')) s s' :=
  Unless.bind (h.readRecord hb) stepRest_keeps stepRest_keeps fun _ _ _ _ x _ _ => x.elim

theorem loop (h : Awaiting k k' s s') (hb : s.reader.bytes < 2 ^ 64) (fuel : Nat) :
    Unless k k' (fun _ _ => False) (messageLoopT .release (some k) (fuel + 1)) (messageLoopT .release (some k') (fuel + 1)) s s' := by
  have keep : ∀ (k : Bytes) (o : Option Message), KeepsPast k (match o with | some msg => Pure.pure msg | none => messageLoopT .release (some k) fuel) := by
    intro k o
    cases o with
    | some msg => exact .pure _
    | none => exact messageLoopT_keeps fuel
  exact Unless.bind (h.step hb) (keep k) (keep k') fun _ _ _ _ x _ _ => x.elim

/-- `read_message` when the first protected record is awaited: a message left over in the buffer, the same for both, or a refusal, or a protected record is accepted. -/
theorem readMessage (h : Awaiting k k' s s') (hb : s.reader.bytes < 2 ^ 64) : Unless k k' Eq (readMessageT .release (some k)) (readMessageT .release (some k')) s s' := by
  have keep : ∀ (k : Bytes) (o : Option Handshake), KeepsPast k (match o with
      | some h => (Pure.pure (.HandshakeMessage h) : TSt TlsReader Message)
      | none => TSt.get >>= fun s => messageLoopT .release (some k) (s.reader.bytes + 1)) := by
    intro k o
    cases o with
    | some msg => exact .pure _
    | none => exact .bind .get fun s => messageLoopT_keeps _
  obtain ⟨g1, g2, g3⟩ := getMessage (k := k) (k' := k') s s' h
  refine Unless.bind (R := Eq) (Or.inr (Or.inr ⟨g1, g2⟩)) (keep k) (keep k') fun o _ s1 s1' e e1 e2 => ?_
  subst e
  rw [e1, e2] at g3
  have g3 : Awaiting k k' s1 s1' := g3
  cases o with
  | some msg => exact Or.inr (Or.inr ⟨rfl, rfl⟩)
  | none =>
    have hr : s1.reader = s.reader := by
      have : s1 = (getMessageT.run s).2.2 := by rw [e1]
      rw [this]; rfl
    have hb1 : s1.reader.bytes < 2 ^ 64 := by rw [hr]; exact hb
    have := g3.loop hb1 s1.reader.bytes
    have e3 : messageLoopT .release (some k') (s1.reader.bytes + 1) = messageLoopT .release (some k') (s1'.reader.bytes + 1) := by rw [g3.reader]
    rw [e3] at this
    rcases this with h | h | ⟨h1, h2⟩
    · exact Or.inl h
    · exact Or.inr (Or.inl h)
    · refine Or.inr (Or.inr ⟨h1, ?_⟩)
      show SameOutcome Eq ((messageLoopT .release (some k) (s1.reader.bytes + 1)).run s1).2.1 ((messageLoopT .release (some k') (s1'.reader.bytes + 1)).run s1').2.1
      revert h2
      generalize ((messageLoopT .release (some k) (s1.reader.bytes + 1)).run s1).2.1 = x
      generalize ((messageLoopT .release (some k') (s1'.reader.bytes + 1)).run s1').2.1 = y
      cases x <;> cases y <;> simp [SameOutcome]

end Awaiting

end TlsReader

end Husk
