import Verif.Model.Tls
import Verif.Spec.Record
import Verif.Proofs.Transport
import Verif.Proofs.Handshake
/-! How the record layer reads: everything depends only on the flat stream. -/

namespace Husk

open Spec

/-- A call gives the same answer on related states and keeps them related. -/
def Respects (R : σ → σ → Prop) (x : St σ α) : Prop := ∀ s t, R s t → (x.run s).1 = (x.run t).1 ∧ R (x.run s).2 (x.run t).2

namespace Respects

variable {R : σ → σ → Prop}

theorem pure (a : α) : Respects R (pure a : St σ α) := fun _ _ h => ⟨rfl, h⟩
theorem lift (r : Res α) : Respects R (St.lift r : St σ α) := fun _ _ h => ⟨rfl, h⟩
theorem err (k) : Respects R (St.err k : St σ α) := fun _ _ h => ⟨rfl, h⟩
theorem panic : Respects R (St.panic : St σ α) := fun _ _ h => ⟨rfl, h⟩

theorem bind {x : St σ α} {f : α → St σ β} (hx : Respects R x) (hf : ∀ a, Respects R (f a)) : Respects R (x >>= f) := by
  intro s t h
  obtain ⟨h1, h2⟩ := hx s t h
  rw [St.bind_run, St.bind_run]
  rcases es : x.run s with ⟨r, s'⟩
  rcases et : x.run t with ⟨r', t'⟩
  rw [es, et] at h1 h2
  simp only at h1 h2
  subst h1
  cases r with
  | ok a => exact hf a _ _ h2
  | err k => exact ⟨rfl, h2⟩
  | panic => exact ⟨rfl, h2⟩
  | diverge => exact ⟨rfl, h2⟩

theorem get_bind {f : σ → St σ β} (hf : ∀ s, Respects R (f s)) (he : ∀ s t, R s t → f s = f t) : Respects R (St.get >>= f) := by
  intro s t h
  have e1 : (St.get >>= f).run s = (f s).run s := rfl
  have e2 : (St.get >>= f).run t = (f t).run t := rfl
  rw [e1, e2, he s t h]
  exact hf t s t h

theorem ite {c : Prop} [Decidable c] {x y : St σ α} (hx : Respects R x) (hy : Respects R y) : Respects R (if c then x else y) := by
  split
  · exact hx
  · exact hy

end Respects

/-- Two readers with the same flat stream. -/
def Reader.Same (r r' : Reader) : Prop := r.stream = r'.stream

theorem Reader.readExact_respects (n : Nat) : Respects Reader.Same (Reader.readExact n) := by
  intro r r' h
  obtain ⟨a, ha1, ha2⟩ := readExact_spec n r
  obtain ⟨b, hb1, hb2⟩ := readExact_spec n r'
  rw [h] at ha1 ha2
  rw [ha1, hb1]
  exact ⟨rfl, by rw [Same, ha2, hb2]⟩

theorem Reader.readU8_respects : Respects Reader.Same Reader.readU8 := Respects.bind (readExact_respects 1) fun _ => Respects.pure _
theorem Reader.readBeU16_respects : Respects Reader.Same Reader.readBeU16 := Respects.bind (readExact_respects 2) fun _ => Respects.pure _

/-- The bytes still to come are the bytes of the flat stream. -/
theorem Reader.bytes_eq (r : Reader) : r.bytes = countBytes r.stream := by
  obtain ⟨es⟩ := r
  induction es with
  | nil => rfl
  | cons e es ih =>
    simp only [Reader.bytes, Reader.stream, List.map_cons, List.sum_cons, List.flatMap_cons, countBytes_append] at ih ⊢
    rw [ih]
    congr 1
    cases e with
    | data b =>
      cases b with
      | nil => rfl
      | cons x b => exact (countBytes_ofBytes (x :: b)).symm
    | fail i => rfl

namespace Reader

theorem readU8_ok {r : Reader} {b : UInt8} {l : List Sym} (h : r.stream = ofBytes [b] ++ l) :
    ∃ r', readU8.run r = (.ok b, r') ∧ r'.stream = l := by
  obtain ⟨r', h1, h2⟩ := readExact_ok (n := 1) (b := [b]) rfl h
  exact ⟨r', by rw [readU8, St.bind_of_ok h1]; rfl, h2⟩

theorem readU8_inv {r r' : Reader} {b : UInt8} (h : readU8.run r = (.ok b, r')) : r.stream = ofBytes [b] ++ r'.stream := by
  obtain ⟨bs, s', h1, h2⟩ := St.bind_eq_ok h
  obtain ⟨hl, hs⟩ := readExact_inv h1
  rw [St.pure_run] at h2
  simp only [Prod.mk.injEq, Res.ok.injEq] at h2
  obtain ⟨h3, rfl⟩ := h2
  match bs, hl with
  | [x], _ =>
    simp at h3
    subst h3
    exact hs

theorem be16 (b : Bytes) (hl : b.length = 2) : (UInt16.ofNat (Util.toBe 2 (leNat b))).toNat = beNat b := by
  have h1 : Util.toBe 2 (leNat b) = beNat b := by
    have := leBytes_leNat b
    rw [hl] at this
    rw [Util.toBe, this, beNat]
  rw [h1]
  have := beNat_lt b
  rw [hl] at this
  simp only [UInt16.toNat_ofNat']
  exact Nat.mod_eq_of_lt this

theorem readBeU16_ok {r : Reader} {n : Nat} {l : List Sym} (hn : n < 2 ^ 16) (h : r.stream = ofBytes (beBytes 2 n) ++ l) :
    ∃ r', readBeU16.run r = (.ok (UInt16.ofNat n), r') ∧ r'.stream = l := by
  obtain ⟨r', h1, h2⟩ := readExact_ok (n := 2) (b := beBytes 2 n) (by simp) h
  refine ⟨r', ?_, h2⟩
  rw [readBeU16, St.bind_of_ok h1, St.pure_run]
  congr 2
  apply UInt16.toNat_inj.mp
  rw [be16 _ (by simp), beNat_beBytes]
  simp

theorem readBeU16_inv {r r' : Reader} {n : UInt16} (h : readBeU16.run r = (.ok n, r')) : r.stream = ofBytes (beBytes 2 n.toNat) ++ r'.stream := by
  obtain ⟨bs, s', h1, h2⟩ := St.bind_eq_ok h
  obtain ⟨hl, hs⟩ := readExact_inv h1
  rw [St.pure_run] at h2
  simp only [Prod.mk.injEq, Res.ok.injEq] at h2
  obtain ⟨h3, rfl⟩ := h2
  rw [← h3, be16 _ hl, ← hl, beBytes_beNat]
  exact hs

theorem readU8_total (r : Reader) : (∃ b r', readU8.run r = (.ok b, r')) ∨ ∃ r', readU8.run r = (.err .IoFailure, r') := by
  rcases readExact_total 1 r with ⟨b, r', h⟩ | ⟨r', h⟩
  · exact Or.inl ⟨_, r', by rw [readU8, St.bind_of_ok h]; rfl⟩
  · exact Or.inr ⟨r', by rw [readU8, St.bind_of_err h]⟩

theorem readBeU16_total (r : Reader) : (∃ b r', readBeU16.run r = (.ok b, r')) ∨ ∃ r', readBeU16.run r = (.err .IoFailure, r') := by
  rcases readExact_total 2 r with ⟨b, r', h⟩ | ⟨r', h⟩
  · exact Or.inl ⟨_, r', by rw [readBeU16, St.bind_of_ok h]; rfl⟩
  · exact Or.inr ⟨r', by rw [readBeU16, St.bind_of_err h]⟩

end Reader

namespace ContentType

theorem ofU8_toU8 (ty : ContentType) : ofU8 ty.toU8 = some ty := by cases ty <;> rfl

theorem toU8_ofU8 {n : UInt8} {ty : ContentType} (h : ofU8 n = some ty) : n = ty.toU8 := by
  unfold ofU8 at h
  split at h
  · cases h; assumption
  · split at h
    · cases h; assumption
    · split at h
      · cases h; assumption
      · split at h
        · cases h; assumption
        · cases h

theorem toU8_inj {a b : ContentType} (h : a.toU8 = b.toU8) : a = b := by
  have := ofU8_toU8 a
  rw [h, ofU8_toU8] at this
  exact (Option.some.inj this).symm

end ContentType

namespace TlsReader

/-- Readers that differ only in how the transport cuts its bytes into chunks. -/
def Same (s t : TlsReader) : Prop :=
  s.reader.stream = t.reader.stream ∧ s.decryptor = t.decryptor ∧ s.readCount = t.readCount ∧ s.handshakeBuffer = t.handshakeBuffer ∧ s.iv = t.iv

theorem io_respects {x : St Reader α} (hx : Respects Reader.Same x) : Respects Same (io x) := by
  intro s t h
  obtain ⟨h1, h2⟩ := hx _ _ h.1
  exact ⟨h1, h2, h.2⟩

theorem onBuffer_respects (x : St HandshakeBuffer α) : Respects Same (onBuffer x) := by
  intro s t h
  obtain ⟨a, b, c, d, e⟩ := h
  simp only [onBuffer, St.zoom_run]
  rw [d]
  exact ⟨rfl, a, b, c, rfl, e⟩

theorem unprotect_same {s t : TlsReader} (h : Same s t) (ty : ContentType) (a b : UInt8) (f : Bytes) : s.unprotect ty a b f = t.unprotect ty a b f := by
  obtain ⟨_, h1, h2, _, h3⟩ := h
  unfold unprotect nonce ad
  rw [h1, h2, h3]

theorem bump_respects (m : Mode) : Respects Same (bump m) := by
  intro s t h
  obtain ⟨a, b, c, d, e⟩ := h
  simp only [bump]
  rw [c]
  cases addU64 m t.readCount 1 <;> exact ⟨rfl, a, b, by first | rfl | exact c, d, e⟩

theorem readRecord_respects (m : Mode) : Respects Same (readRecord m) := by
  refine Respects.bind (io_respects Reader.readU8_respects) fun ty => ?_
  cases ContentType.ofU8 ty with
  | none => exact Respects.err _
  | some ty =>
    refine Respects.bind (io_respects Reader.readU8_respects) fun a => ?_
    refine Respects.bind (io_respects Reader.readU8_respects) fun b => ?_
    refine Respects.bind (io_respects Reader.readBeU16_respects) fun len => ?_
    refine Respects.ite (Respects.err _) ?_
    refine Respects.bind (io_respects (Reader.readExact_respects _)) fun f => ?_
    refine Respects.get_bind (fun s => ?_) (fun s t h => by rw [unprotect_same h])
    exact Respects.bind (Respects.lift _) fun _ => Respects.bind (bump_respects m) fun _ => Respects.pure _

theorem messageStep_respects (m : Mode) : Respects Same (messageStep m) := by
  refine Respects.bind (readRecord_respects m) fun r => ?_
  cases r.contentType with
  | ChangeCipherSpecTy => exact Respects.bind (Respects.lift _) fun _ => Respects.pure _
  | AlertTy => exact Respects.bind (Respects.lift _) fun _ => Respects.pure _
  | HandshakeTy =>
    refine Respects.ite (Respects.err _) ?_
    refine Respects.bind (onBuffer_respects _) fun _ => ?_
    refine Respects.bind (onBuffer_respects _) fun h => ?_
    cases h <;> exact Respects.pure _
  | ApplicationDataTy => exact Respects.pure _

theorem messageLoop_respects (m : Mode) (fuel : Nat) : Respects Same (messageLoop m fuel) := by
  induction fuel with
  | zero => exact Respects.lift _
  | succ fuel ih =>
    refine Respects.bind (messageStep_respects m) fun o => ?_
    cases o with
    | some msg => exact Respects.pure _
    | none => exact ih

theorem readMessage_respects (m : Mode) : Respects Same (readMessage m) := by
  refine Respects.bind (onBuffer_respects _) fun o => ?_
  cases o with
  | some h => exact Respects.pure _
  | none =>
    refine Respects.get_bind (fun s => messageLoop_respects m _) fun s t h => ?_
    rw [Reader.bytes_eq, Reader.bytes_eq, h.1]

theorem readApplicationData_respects (m : Mode) : Respects Same (readApplicationData m) := by
  refine Respects.get_bind (fun s => ?_) fun s t h => by rw [h.2.1]
  exact Respects.ite Respects.panic (Respects.bind (readMessage_respects m) fun _ => Respects.lift _)

theorem readHandshake_respects (m : Mode) : Respects Same (readHandshake m) := by
  refine Respects.bind (readMessage_respects m) fun msg => ?_
  cases msg with
  | HandshakeMessage h => exact Respects.pure _
  | ChangeCipherSpecMessage => exact Respects.err _
  | AlertMessage a => exact Respects.err _
  | ApplicationDataMessage b => exact Respects.err _

theorem readChangeCipherSpec_respects (m : Mode) : Respects Same (readChangeCipherSpec m) := by
  refine Respects.bind (readMessage_respects m) fun msg => ?_
  cases msg with
  | HandshakeMessage h => exact Respects.err _
  | ChangeCipherSpecMessage => exact Respects.pure _
  | AlertMessage a => exact Respects.err _
  | ApplicationDataMessage b => exact Respects.err _

/-! ### One record -/

theorem io_ok {x : St Reader α} {s : TlsReader} {a : α} {r : Reader} (h : x.run s.reader = (.ok a, r)) :
    (io x).run s = (.ok a, { s with reader := r }) := by
  simp only [io, St.zoom_run, h]

theorem io_err {x : St Reader α} {s : TlsReader} {k} {r : Reader} (h : x.run s.reader = (.err k, r)) :
    (io x).run s = (.err k, { s with reader := r }) := by
  simp only [io, St.zoom_run, h]

/-- What happens once the fragment is there. -/
def finish (m : Mode) (ty : ContentType) (a b : UInt8) (f : Bytes) : St TlsReader Record := do
  let s ← St.get
  let record ← St.lift (s.unprotect ty a b f)
  bump m
  return record

/-- `readRecord` when the stream begins with a record that is not announced as too long. -/
theorem readRecord_front {m : Mode} {s : TlsReader} {ty : ContentType} {a b : UInt8} {f : Bytes} {l : List Sym}
    (hl : f.length ≤ ENC_RECORD_MAX_LEN) (hs : s.reader.stream = ofBytes (recordBytes ty.toU8 a b f) ++ l) :
    ∃ r', r'.stream = l ∧ (readRecord m).run s = (finish m ty a b f).run { s with reader := r' } := by
  have hE : ENC_RECORD_MAX_LEN = 18432 := rfl
  have hs1 : s.reader.stream = ofBytes [ty.toU8] ++ (ofBytes [a] ++ (ofBytes [b] ++ (ofBytes (beBytes 2 f.length) ++ (ofBytes f ++ l)))) := by
    rw [hs]; simp [recordBytes, ofBytes]
  obtain ⟨r1, h1, hs1⟩ := Reader.readU8_ok hs1
  obtain ⟨r2, h2, hs2⟩ := Reader.readU8_ok hs1
  obtain ⟨r3, h3, hs3⟩ := Reader.readU8_ok hs2
  obtain ⟨r4, h4, hs4⟩ := Reader.readBeU16_ok (by omega) hs3
  have hlen : (UInt16.ofNat f.length).toNat = f.length := by
    simp only [UInt16.toNat_ofNat']; omega
  obtain ⟨r5, h5, hs5⟩ := Reader.readExact_ok (n := (UInt16.ofNat f.length).toNat) hlen.symm hs4
  refine ⟨r5, hs5, ?_⟩
  rw [readRecord, St.bind_of_ok (io_ok h1)]
  simp only [ContentType.ofU8_toU8]
  rw [St.bind_of_ok (io_ok (s := { s with reader := r1 }) h2), St.bind_of_ok (io_ok (s := { s with reader := r2 }) h3),
    St.bind_of_ok (io_ok (s := { s with reader := r3 }) h4), if_neg (by rw [hlen]; omega), St.bind_of_ok (io_ok (s := { s with reader := r4 }) h5)]
  rfl

theorem finish_run (m : Mode) (ty : ContentType) (a b : UInt8) (f : Bytes) (s : TlsReader) : (finish m ty a b f).run s =
    match s.unprotect ty a b f with
    | .ok r => ((bump m).run s).1 >>= (fun _ => .ok r) |> fun x => (x, ((bump m).run s).2)
    | .err k => (.err k, s)
    | .panic => (.panic, s)
    | .diverge => (.diverge, s) := by
  have e : (finish m ty a b f).run s = (St.lift (s.unprotect ty a b f) >>= fun record => bump m >>= fun _ => pure record : St TlsReader Record).run s := rfl
  rw [e, St.bind_run, St.lift_run]
  cases s.unprotect ty a b f with
  | ok r =>
    simp only
    rw [St.bind_run]
    rcases (bump m).run s with ⟨x, s'⟩
    cases x <;> rfl
  | err k => rfl
  | panic => rfl
  | diverge => rfl

theorem bump_ok (m : Mode) (s : TlsReader) (h : s.readCount.toNat + 1 < 2 ^ 64) : (bump m).run s = (.ok (), { s with readCount := s.readCount + 1 }) := by
  have h1 : (1 : UInt64).toNat = 1 := rfl
  simp only [bump, addU64, h1, if_pos h]

theorem bump_cases (m : Mode) (s : TlsReader) : (bump m).run s = (.ok (), { s with readCount := s.readCount + 1 }) ∨
    ((bump m).run s = (.panic, s) ∧ 2 ^ 64 ≤ s.readCount.toNat + 1) := by
  have h1 : (1 : UInt64).toNat = 1 := rfl
  by_cases h : s.readCount.toNat + 1 < 2 ^ 64
  · exact Or.inl (bump_ok m s h)
  · cases m with
    | debug => right; exact ⟨by simp only [bump, addU64, h1, if_neg h], by omega⟩
    | release => left; simp only [bump, addU64, h1, if_neg h]

theorem bump_inv {m : Mode} {s s' : TlsReader} {x} (h : (bump m).run s = (.ok x, s')) : s' = { s with readCount := s.readCount + 1 } := by
  rcases bump_cases m s with h1 | ⟨h1, -⟩
  · rw [h1] at h; simp at h; exact h.symm
  · rw [h1] at h; simp at h

/-- The outcome of `read_record`, by what is at the front of the stream. -/
inductive Outcome (m : Mode) (s : TlsReader) : Res Record × TlsReader → Prop
  | io (r' : Reader) : r'.stream <:+ s.reader.stream → Outcome m s (.err .IoFailure, { s with reader := r' })
  | badType (n : UInt8) (r' : Reader) : ContentType.ofU8 n = none → s.reader.stream = ofBytes [n] ++ r'.stream →
      Outcome m s (.err .UnexpectedMessage, { s with reader := r' })
  | tooLong (ty : ContentType) (a b : UInt8) (n : Nat) (r' : Reader) : n > ENC_RECORD_MAX_LEN → n < 2 ^ 16 →
      s.reader.stream = ofBytes ([ty.toU8, a, b] ++ beBytes 2 n) ++ r'.stream → Outcome m s (.err .RecordOverflow, { s with reader := r' })
  | full (ty : ContentType) (a b : UInt8) (f : Bytes) (r' : Reader) : f.length ≤ ENC_RECORD_MAX_LEN →
      s.reader.stream = ofBytes (recordBytes ty.toU8 a b f) ++ r'.stream → Outcome m s ((finish m ty a b f).run { s with reader := r' })

theorem countBytes_suffix {l l' : List Sym} (h : l' <:+ l) : countBytes l' ≤ countBytes l := by
  obtain ⟨p, rfl⟩ := h
  rw [countBytes_append]; omega

theorem _root_.Husk.Reader.readExact_suffix {n : Nat} {r r' : Reader} {x} (h : (Reader.readExact n).run r = (x, r')) : r'.stream <:+ r.stream := by
  obtain ⟨r2, h1, h2⟩ := Reader.readExact_spec n r
  rw [h] at h1
  simp only [Prod.mk.injEq] at h1
  obtain ⟨-, rfl⟩ := h1
  rw [h2]
  rcases e : takeBytes n r.stream with ⟨_ | bs, l⟩
  · obtain ⟨bs, _, ⟨h3, h4⟩ | h3⟩ := Spec.takeBytes_none e
    · simp only [h4]; exact List.nil_suffix
    · rw [h3]; exact ⟨ofBytes bs ++ [Sym.stop], by simp⟩
  · rw [Spec.takeBytes_some e]; exact List.suffix_append _ _

theorem readRecord_outcome (m : Mode) (s : TlsReader) : Outcome m s ((readRecord m).run s) := by
  have cnt : ∀ {r r' : Reader} {bs : Bytes}, r.stream = ofBytes bs ++ r'.stream → r'.stream <:+ r.stream := by
    intro r r' bs h
    rw [h]; exact List.suffix_append _ _
  have cntE : ∀ {r r' : Reader}, Reader.readU8.run r = (.err .IoFailure, r') → r'.stream <:+ r.stream := by
    intro r r' h
    rcases Reader.readExact_total 1 r with ⟨b, r2, h2⟩ | ⟨r2, h2⟩
    · rw [Reader.readU8, St.bind_of_ok h2] at h; simp [St.pure_run] at h
    · rw [Reader.readU8, St.bind_of_err h2] at h
      simp only [Prod.mk.injEq] at h
      rw [← h.2]
      exact Reader.readExact_suffix h2
  rcases Reader.readU8_total s.reader with ⟨n, r1, h1⟩ | ⟨r1, h1⟩
  rotate_left
  · rw [readRecord, St.bind_of_err (io_err h1)]
    exact .io r1 (cntE h1)
  have hs1 := Reader.readU8_inv h1
  cases hty : ContentType.ofU8 n with
  | none =>
    rw [readRecord, St.bind_of_ok (io_ok h1)]
    simp only [hty]
    exact .badType n r1 hty hs1
  | some ty =>
  have htn := ContentType.toU8_ofU8 hty
  subst htn
  rcases Reader.readU8_total r1 with ⟨a, r2, h2⟩ | ⟨r2, h2⟩
  rotate_left
  · rw [readRecord, St.bind_of_ok (io_ok h1)]
    simp only [hty]
    rw [St.bind_of_err (io_err (s := { s with reader := r1 }) h2)]
    exact .io r2 (List.IsSuffix.trans (cntE h2) (cnt hs1))
  have hs2 := Reader.readU8_inv h2
  rcases Reader.readU8_total r2 with ⟨b, r3, h3⟩ | ⟨r3, h3⟩
  rotate_left
  · rw [readRecord, St.bind_of_ok (io_ok h1)]
    simp only [hty]
    rw [St.bind_of_ok (io_ok (s := { s with reader := r1 }) h2), St.bind_of_err (io_err (s := { s with reader := r2 }) h3)]
    exact .io r3 (List.IsSuffix.trans (cntE h3) (List.IsSuffix.trans (cnt hs2) (cnt hs1)))
  have hs3 := Reader.readU8_inv h3
  rcases Reader.readBeU16_total r3 with ⟨len, r4, h4⟩ | ⟨r4, h4⟩
  rotate_left
  · rw [readRecord, St.bind_of_ok (io_ok h1)]
    simp only [hty]
    rw [St.bind_of_ok (io_ok (s := { s with reader := r1 }) h2), St.bind_of_ok (io_ok (s := { s with reader := r2 }) h3),
      St.bind_of_err (io_err (s := { s with reader := r3 }) h4)]
    refine .io r4 (List.IsSuffix.trans ?_ (List.IsSuffix.trans (cnt hs3) (List.IsSuffix.trans (cnt hs2) (cnt hs1))))
    rcases Reader.readExact_total 2 r3 with ⟨x, r5, h5⟩ | ⟨r5, h5⟩
    · rw [Reader.readBeU16, St.bind_of_ok h5] at h4; simp [St.pure_run] at h4
    · rw [Reader.readBeU16, St.bind_of_err h5] at h4
      simp only [Prod.mk.injEq] at h4
      rw [← h4.2]
      exact Reader.readExact_suffix h5
  have hs4 := Reader.readBeU16_inv h4
  have hstream : s.reader.stream = ofBytes ([ty.toU8, a, b] ++ beBytes 2 len.toNat) ++ r4.stream := by
    rw [hs1, hs2, hs3, hs4]; simp [ofBytes]
  by_cases hlen : len.toNat > ENC_RECORD_MAX_LEN
  · rw [readRecord, St.bind_of_ok (io_ok h1)]
    simp only [hty]
    rw [St.bind_of_ok (io_ok (s := { s with reader := r1 }) h2), St.bind_of_ok (io_ok (s := { s with reader := r2 }) h3),
      St.bind_of_ok (io_ok (s := { s with reader := r3 }) h4), if_pos hlen]
    exact .tooLong ty a b len.toNat r4 hlen len.toNat_lt hstream
  rcases Reader.readExact_total len.toNat r4 with ⟨f, r5, h5⟩ | ⟨r5, h5⟩
  rotate_left
  · rw [readRecord, St.bind_of_ok (io_ok h1)]
    simp only [hty]
    rw [St.bind_of_ok (io_ok (s := { s with reader := r1 }) h2), St.bind_of_ok (io_ok (s := { s with reader := r2 }) h3),
      St.bind_of_ok (io_ok (s := { s with reader := r3 }) h4), if_neg hlen, St.bind_of_err (io_err (s := { s with reader := r4 }) h5)]
    exact .io r5 (List.IsSuffix.trans (Reader.readExact_suffix h5) (cnt hstream))
  obtain ⟨hfl, hs5⟩ := Reader.readExact_inv h5
  rw [readRecord, St.bind_of_ok (io_ok h1)]
  simp only [hty]
  rw [St.bind_of_ok (io_ok (s := { s with reader := r1 }) h2), St.bind_of_ok (io_ok (s := { s with reader := r2 }) h3),
    St.bind_of_ok (io_ok (s := { s with reader := r3 }) h4), if_neg hlen, St.bind_of_ok (io_ok (s := { s with reader := r4 }) h5)]
  refine Outcome.full ty a b f r5 (by omega) ?_
  rw [hstream, hs5, recordBytes, hfl]
  simp [ofBytes]

/-- A record delivered: it was at the front of the stream, passed the decryptor, and the sequence number went up by one. -/
theorem readRecord_inv {m : Mode} {s s' : TlsReader} {rec : Record} (h : (readRecord m).run s = (.ok rec, s')) :
    ∃ ty a b f r', f.length ≤ ENC_RECORD_MAX_LEN ∧ s.reader.stream = ofBytes (recordBytes ty.toU8 a b f) ++ r'.stream ∧
      s.unprotect ty a b f = .ok rec ∧ s' = { s with reader := r', readCount := s.readCount + 1 } := by
  have ho := readRecord_outcome m s
  rw [h] at ho
  generalize hx : (Res.ok rec, s') = x at ho
  cases ho with
  | io => simp at hx
  | badType => simp at hx
  | tooLong => simp at hx
  | full ty a b f r' hl hs =>
    refine ⟨ty, a, b, f, r', hl, hs, ?_⟩
    rw [finish_run] at hx
    have e : TlsReader.unprotect { s with reader := r' } ty a b f = s.unprotect ty a b f := rfl
    rw [e] at hx
    cases hu : s.unprotect ty a b f with
    | ok r =>
      rw [hu] at hx
      simp only at hx
      rcases hb : (bump m).run { s with reader := r' } with ⟨y, s2⟩
      rw [hb] at hx
      cases y with
      | ok u =>
        simp at hx
        rw [hx.1, hx.2]
        exact ⟨rfl, bump_inv hb⟩
      | err k => simp at hx
      | panic => simp at hx
      | diverge => simp at hx
    | err k => rw [hu] at hx; simp at hx
    | panic => rw [hu] at hx; simp at hx
    | diverge => rw [hu] at hx; simp at hx

/-- A failed `read_record` changes nothing but the position in the stream. -/
theorem readRecord_fail {m : Mode} {s s' : TlsReader} {x : Res Record} (h : (readRecord m).run s = (x, s')) (hx : ∀ r, x ≠ .ok r) :
    ∃ r', r'.stream <:+ s.reader.stream ∧ s' = { s with reader := r' } := by
  have ho := readRecord_outcome m s
  rw [h] at ho
  generalize hy : (x, s') = y at ho
  cases ho with
  | io r' hc => simp at hy; exact ⟨r', hc, hy.2⟩
  | badType n r' _ hs => simp at hy; exact ⟨r', by rw [hs]; exact List.suffix_append _ _, hy.2⟩
  | tooLong _ _ _ _ r' _ _ hs => simp at hy; exact ⟨r', by rw [hs]; exact List.suffix_append _ _, hy.2⟩
  | full ty a b f r' hl hs =>
    refine ⟨r', by rw [hs]; exact List.suffix_append _ _, ?_⟩
    rw [finish_run] at hy
    cases hu : TlsReader.unprotect { s with reader := r' } ty a b f with
    | ok r =>
      rw [hu] at hy
      simp only at hy
      rcases bump_cases m { s with reader := r' } with hb | ⟨hb, -⟩
      · rw [hb] at hy; simp at hy; exact absurd hy.1 (hx r)
      · rw [hb] at hy; simp at hy; exact hy.2
    | err k => rw [hu] at hy; simp at hy; exact hy.2
    | panic => rw [hu] at hy; simp at hy; exact hy.2
    | diverge => rw [hu] at hy; simp at hy; exact hy.2

theorem recordBytes_length (ty a b : UInt8) (f : Bytes) : (recordBytes ty a b f).length = f.length + 5 := by
  simp [recordBytes]; omega

/-- A record delivered used up at least five bytes. -/
theorem readRecord_consumes {m : Mode} {s s' : TlsReader} {rec : Record} (h : (readRecord m).run s = (.ok rec, s')) :
    countBytes s'.reader.stream + 5 ≤ countBytes s.reader.stream := by
  obtain ⟨ty, a, b, f, r', _, hs, _, rfl⟩ := readRecord_inv h
  rw [hs, countBytes_append, countBytes_ofBytes, recordBytes_length]
  simp only
  omega

end TlsReader

end Husk
