import Verif.Props.Buffering
/-! C93: the handshake takes a bounded number of bytes from the transport, whatever the server sends. -/

namespace Husk

open Item Spec TlsReader TlsClient

/-! ### Proofs -/

/-- Length of the largest handshake message. -/
def maxMessage : Nat := 2 ^ 24 + 3

/-- Length of the largest record on the wire. -/
def maxRecord : Nat := 5 + ENC_RECORD_MAX_LEN

theorem Post.relax {P : σ → Prop} {Q Q' : α → σ → Prop} {I I' : σ → Prop} {x : St σ α} (hx : Post P x Q I) (hq : ∀ a s, Q a s → Q' a s) (hi : ∀ s, I s → I' s) :
    Post P x Q' I' := by
  intro s hs
  have h := hx s hs
  generalize x.run s = r at h ⊢
  obtain ⟨r, s'⟩ := r
  cases r with
  | ok a => exact hq a s' h
  | err k => exact hi s' h
  | panic => exact hi s' h
  | diverge => exact hi s' h

/-- Of `N` bytes at most `C` have been taken, and `a` for each byte in the buffer; `d` is the decryptor. -/
def Paid (N a : Nat) (d : Option Decryptor) (C : Nat) (s : TlsReader) : Prop :=
  N ≤ s.reader.bytes + C + a * s.handshakeBuffer.buf.length ∧ s.decryptor = d

theorem Paid.more {N a d C C'} {s : TlsReader} (h : Paid N a d C s) (hc : C ≤ C') : Paid N a d C' s := ⟨by have := h.1; omega, h.2⟩

/-- With this decryptor a record of `n` bytes of content is at most `n + a - 1` bytes on the wire. -/
def Overhead (a : Nat) (d : Option Decryptor) : Prop :=
  1 ≤ a ∧ ∀ (s : TlsReader) ty x y f rec, s.decryptor = d → f.length ≤ ENC_RECORD_MAX_LEN → s.unprotect ty x y f = .ok rec → f.length + 6 ≤ rec.fragment.length + a

theorem Reader.readExact_takes (n : Nat) (r : Reader) : r.bytes ≤ ((Reader.readExact n).run r).2.bytes + n := by
  obtain ⟨r', h1, h2⟩ := Reader.readExact_spec n r
  rw [h1, Reader.bytes_eq, Reader.bytes_eq, h2]
  rcases e : takeBytes n r.stream with ⟨_ | bs, l⟩
  · obtain ⟨bs, hl, ⟨h3, h4⟩ | h3⟩ := Spec.takeBytes_none e
    · rw [h3, countBytes_ofBytes]; omega
    · rw [h3]
      simp only [countBytes_append, countBytes_ofBytes]
      have : countBytes (Sym.stop :: l) = countBytes l := rfl
      omega
  · have hl := Spec.takeBytes_length e
    rw [Spec.takeBytes_some e, countBytes_append, countBytes_ofBytes]
    simp only
    omega

theorem io_paid {N a C n : Nat} {d : Option Decryptor} {x : St Reader α} (hx : ∀ r : Reader, r.bytes ≤ (x.run r).2.bytes + n) :
    Post (Paid N a d C) (TlsReader.io x) (fun _ => Paid N a d (C + n)) (Paid N a d (C + n)) := by
  rintro s ⟨h1, h2⟩
  have h := hx s.reader
  simp only [TlsReader.io, St.zoom_run]
  generalize x.run s.reader = r at h ⊢
  obtain ⟨r, s'⟩ := r
  have : Paid N a d (C + n) { s with reader := s' } := ⟨by simp only at h ⊢; omega, h2⟩
  cases r <;> exact this

theorem readU8_takes (r : Reader) : r.bytes ≤ (Reader.readU8.run r).2.bytes + 1 := by
  have h := Reader.readExact_takes 1 r
  rw [Reader.readU8, St.bind_run]
  generalize (Reader.readExact 1).run r = x at h ⊢
  obtain ⟨x, r'⟩ := x
  cases x <;> exact h

theorem readBeU16_takes (r : Reader) : r.bytes ≤ (Reader.readBeU16.run r).2.bytes + 2 := by
  have h := Reader.readExact_takes 2 r
  rw [Reader.readBeU16, St.bind_run]
  generalize (Reader.readExact 2).run r = x at h ⊢
  obtain ⟨x, r'⟩ := x
  cases x <;> exact h

/-- Any outcome of `read_record` takes at most one record. -/
theorem readRecord_takes {N a C : Nat} {d : Option Decryptor} (m : Mode) :
    Post (Paid N a d C) (readRecord m) (fun _ => Paid N a d (C + maxRecord)) (Paid N a d (C + maxRecord)) := by
  have hE : maxRecord = 18437 := rfl
  have wk : ∀ {α : Type} {C' n : Nat} {x : St TlsReader α}, C' + n ≤ C + maxRecord →
      Post (Paid N a d C') x (fun _ => Paid N a d (C' + n)) (Paid N a d (C' + n)) → Post (Paid N a d C') x (fun _ => Paid N a d (C' + n)) (Paid N a d (C + maxRecord)) := by
    intro α C' n x hn hx
    exact hx.relax (fun _ _ h => h) fun _ h => h.more hn
  refine Post.bind (wk (by omega) (io_paid readU8_takes)) fun ty => ?_
  cases ContentType.ofU8 ty with
  | none => exact Post.err fun _ h => h.more (by omega)
  | some ty =>
    refine Post.bind (wk (by omega) (io_paid readU8_takes)) fun x => Post.bind (wk (by omega) (io_paid readU8_takes)) fun y =>
      Post.bind (wk (by omega) (io_paid readBeU16_takes)) fun len => ?_
    by_cases hl : len.toNat > ENC_RECORD_MAX_LEN
    · rw [if_pos hl]; exact Post.err fun _ h => h.more (by omega)
    · rw [if_neg hl]
      have hE2 : ENC_RECORD_MAX_LEN = 18432 := rfl
      refine Post.bind (wk (by omega) (io_paid (Reader.readExact_takes _))) fun f => Post.get_bind fun c => ?_
      refine Post.bind (Post.lift (Q := fun _ => Paid N a d (C + maxRecord)) _ (fun rec t h ht => ht.more (by omega)) fun _ h => h.more (by omega)) fun rec => ?_
      refine Post.bind (Q := fun _ => Paid N a d (C + maxRecord)) ?_ fun _ => Post.pure fun _ h => h
      intro t ht
      simp only [TlsReader.bump]
      cases addU64 m t.readCount 1 <;> exact ht

/-- A record delivered takes at most `a - 1` bytes more than its content. -/
theorem readRecord_paid {N a C : Nat} {d : Option Decryptor} (hd : Overhead a d) (m : Mode) :
    Post (Paid N a d C) (readRecord m) (fun rec s => N + 1 ≤ s.reader.bytes + C + a * s.handshakeBuffer.buf.length + rec.fragment.length + a ∧ Paid N a d (C + maxRecord) s)
      (Paid N a d (C + maxRecord)) := by
  intro s hs
  have h := readRecord_takes m s hs
  rcases hr : (readRecord m).run s with ⟨r, s'⟩
  rw [hr] at h
  cases r with
  | ok rec =>
    refine ⟨?_, h⟩
    obtain ⟨ty, x, y, f, r', h0, h1, h2, rfl⟩ := readRecord_inv hr
    have h3 := hd.2 s ty x y f rec hs.2 h0 h2
    have h4 := hs.1
    rw [Reader.bytes_eq, h1, countBytes_append, countBytes_ofBytes, recordBytes_length, ← Reader.bytes_eq] at h4
    simp only
    omega
  | err k => exact h
  | panic => exact h
  | diverge => exact h

/-- What is taken for one message, beyond what stays in the buffer. -/
def perMessage (a : Nat) : Nat := a * maxMessage + maxRecord

theorem getMessage_paid {N a C : Nat} {d : Option Decryptor} :
    Post (Paid N a d C) (TlsReader.onBuffer HandshakeBuffer.getMessage) (fun o s => Paid N a d (C + a * maxMessage) s ∧ (o = none → Paid N a d C s)) (Paid N a d (C + a * maxMessage)) := by
  rintro s ⟨hs, hd⟩
  simp only [TlsReader.onBuffer, St.zoom_run, HandshakeBuffer.getMessage]
  have hb : beNat ((s.handshakeBuffer.buf.drop 1).take 3) < 2 ^ 24 := by
    have h1 := beNat_lt ((s.handshakeBuffer.buf.drop 1).take 3)
    have h2 : ((s.handshakeBuffer.buf.drop 1).take 3).length ≤ 3 := by simp
    exact lt_of_lt_of_le h1 (by
      calc 256 ^ ((s.handshakeBuffer.buf.drop 1).take 3).length ≤ 256 ^ 3 := Nat.pow_le_pow_right (by omega) h2
        _ = 2 ^ 24 := by norm_num)
  have h0 : Paid N a d C s := ⟨hs, hd⟩
  split
  · exact ⟨h0.more (by omega), fun _ => h0⟩
  · split
    · exact ⟨h0.more (by omega), fun _ => h0⟩
    · have hp : Paid N a d (C + a * maxMessage) { s with handshakeBuffer := { buf := s.handshakeBuffer.buf.drop (beNat ((s.handshakeBuffer.buf.drop 1).take 3) + 4) } } := by
        refine ⟨?_, hd⟩
        have h1 : s.handshakeBuffer.buf.length ≤ maxMessage + (s.handshakeBuffer.buf.drop (beNat ((s.handshakeBuffer.buf.drop 1).take 3) + 4)).length := by
          rw [List.length_drop]; unfold maxMessage; omega
        have h2 := Nat.mul_le_mul_left a h1
        rw [Nat.mul_add] at h2
        simp only
        omega
      generalize ((TlsItem.read (α := Handshake)).run (s.handshakeBuffer.buf.take (beNat ((s.handshakeBuffer.buf.drop 1).take 3) + 4))).1 = r
      cases r with
      | ok h => exact ⟨hp, fun h => by cases h⟩
      | err k => exact hp
      | panic => exact hp
      | diverge => exact hp

theorem messageStep_paid {N a C : Nat} {d : Option Decryptor} (hd : Overhead a d) (m : Mode) :
    Post (Paid N a d C) (messageStep m) (fun o s => Paid N a d (C + perMessage a) s ∧ (o = none → Paid N a d C s)) (Paid N a d (C + perMessage a)) := by
  have hR : maxRecord ≤ perMessage a := by unfold perMessage; omega
  have hM : a * maxMessage ≤ perMessage a := by unfold perMessage; omega
  have h0 : Post (Paid N a d C) (readRecord m) (fun rec s => N + 1 ≤ s.reader.bytes + C + a * s.handshakeBuffer.buf.length + rec.fragment.length + a ∧ Paid N a d (C + maxRecord) s)
      (Paid N a d (C + perMessage a)) := (readRecord_paid hd m).relax (fun _ _ h => h) fun _ h => h.more (by omega)
  refine Post.bind h0 fun rec => ?_
  cases rec.contentType with
  | ChangeCipherSpecTy =>
    exact Post.bind (Post.lift (Q := fun _ => Paid N a d (C + perMessage a)) _ (fun _ s _ hs => hs.2.more (by omega)) fun s hs => hs.2.more (by omega)) fun msg =>
      Post.pure fun s hs => ⟨hs, fun h => by cases h⟩
  | AlertTy =>
    exact Post.bind (Post.lift (Q := fun _ => Paid N a d (C + perMessage a)) _ (fun _ s _ hs => hs.2.more (by omega)) fun s hs => hs.2.more (by omega)) fun msg =>
      Post.pure fun s hs => ⟨hs, fun h => by cases h⟩
  | HandshakeTy =>
    dsimp only
    by_cases he : rec.fragment.isEmpty
    · rw [if_pos he]; exact Post.err fun s hs => hs.2.more (by omega)
    · rw [if_neg he]
      have hl : 1 ≤ rec.fragment.length := by
        cases hf : rec.fragment with
        | nil => rw [hf] at he; exact absurd rfl he
        | cons x l => simp
      refine Post.bind (Q := fun _ s => Paid N a d C s) ?_ fun _ => ?_
      · rintro s ⟨hs, hs2⟩
        refine ⟨?_, hs2.2⟩
        show N ≤ s.reader.bytes + C + a * (s.handshakeBuffer.buf ++ rec.fragment).length
        rw [List.length_append, Nat.mul_add]
        have : rec.fragment.length + a ≤ a * rec.fragment.length + 1 := by
          obtain ⟨x, hx⟩ := Nat.exists_eq_add_of_le hl
          obtain ⟨y, hy⟩ := Nat.exists_eq_add_of_le hd.1
          rw [hx, hy]
          nlinarith [Nat.zero_le (x * y)]
        omega
      · refine Post.bind (Q := fun o s => Paid N a d (C + perMessage a) s ∧ (o = none → Paid N a d C s)) ?_ fun o => ?_
        · exact getMessage_paid.relax (fun _ _ h => ⟨h.1.more (by omega), h.2⟩) fun _ h => h.more (by omega)
        · cases o with
          | none => exact Post.pure fun s hs => ⟨hs.1, fun _ => hs.2 rfl⟩
          | some h => exact Post.pure fun s hs => ⟨hs.1, fun h => by cases h⟩
  | ApplicationDataTy => exact Post.pure fun s hs => ⟨hs.2.more (by omega), fun h => by cases h⟩

theorem messageLoop_paid {N a C : Nat} {d : Option Decryptor} (hd : Overhead a d) (m : Mode) (fuel : Nat) :
    Post (Paid N a d C) (messageLoop m fuel) (fun _ => Paid N a d (C + perMessage a)) (Paid N a d (C + perMessage a)) := by
  induction fuel with
  | zero => exact Post.lift _ (fun a s h => by cases h) fun s hs => hs.more (by omega)
  | succ fuel ih =>
    refine Post.bind (messageStep_paid hd m) fun o => ?_
    cases o with
    | none => exact ih.weaken (fun s hs => hs.2 rfl) fun _ _ h => h
    | some msg => exact Post.pure fun s hs => hs.1

theorem readMessage_paid {N a C : Nat} {d : Option Decryptor} (hd : Overhead a d) (m : Mode) :
    Post (Paid N a d C) (readMessage m) (fun _ => Paid N a d (C + perMessage a)) (Paid N a d (C + perMessage a)) := by
  have hM : a * maxMessage ≤ perMessage a := by unfold perMessage; omega
  refine Post.bind (Q := fun o s => Paid N a d (C + perMessage a) s ∧ (o = none → Paid N a d C s)) ?_ fun o => ?_
  · exact getMessage_paid.relax (fun _ _ h => ⟨h.1.more (by omega), h.2⟩) fun _ h => h.more (by omega)
  · cases o with
    | some h => exact Post.pure fun s hs => hs.1
    | none => exact Post.get_bind fun c => (messageLoop_paid hd m _).weaken (fun s hs => hs.2 rfl) fun _ _ h => h

theorem decrypt_length {m : Mode} {key nonce f ad p : Bytes} (h : Aead.decrypt m key nonce f ad = .ok p) (hf : f.length ≤ 2 ^ 38 - 128) : f.length = p.length + 16 := by
  have hkn : key.length = 32 ∧ nonce.length = 12 := by
    unfold Aead.decrypt at h
    simp only at h
    split at h
    · cases h
    · obtain ⟨c, hc, -⟩ := Res.bind_eq_ok.mp h
      unfold ChaCha20.new at hc
      split at hc
      · cases hc
      · split at hc
        · cases hc
        · rename_i h1 h2
          exact ⟨not_not.mp h1, not_not.mp h2⟩
  rw [C39_decrypt_is_rfc8439 m key nonce f ad hkn.1 hkn.2 hf] at h
  unfold Spec.Aead.openMsg at h
  split at h
  · rename_i q hq
    split at hq
    · cases hq
    · rename_i hl
      dsimp only at hq
      split at hq
      · cases h
        have := Option.some.inj hq
        rw [← this]
        simp [Spec.ChaCha20.encrypt]
        omega
      · cases hq
  · cases h

theorem overhead_none : Overhead 6 none := by
  refine ⟨by omega, fun s ty x y f rec hd hf h => ?_⟩
  unfold TlsReader.unprotect at h
  simp only [hd] at h
  split at h
  · cases h
  · unfold Record.new at h
    split at h
    · cases h
    · cases h; exact le_refl _

theorem overhead_chacha (m : Mode) (key : Bytes) : Overhead 22 (some (.chacha m key)) := by
  refine ⟨by omega, fun s ty x y f rec hd hf h => ?_⟩
  unfold TlsReader.unprotect at h
  simp only [hd] at h
  split at h
  · cases h
  · obtain ⟨data, h1, h2⟩ := Res.bind_eq_ok.mp h
    split at h2
    · cases h2
    · unfold Record.new at h2
      split at h2
      · cases h2
      · cases h2
        show f.length + 6 ≤ data.length + 22
        have e : (Decryptor.chacha m key).decrypt s.nonce f (s.ad ty x y (f.length - (Decryptor.chacha m key).macLen)) =
          Aead.decrypt m key s.nonce f (s.ad ty x y (f.length - (Decryptor.chacha m key).macLen)) := rfl
        rw [e] at h1
        have h3 := decrypt_length h1 (by have : ENC_RECORD_MAX_LEN = 18432 := rfl; omega)
        omega

/-- Of `N` bytes the client has taken at most `B`, and 22 for each byte in the buffer. -/
def Spent (N B : Nat) (c : TlsClient) : Prop := N ≤ c.reader.reader.bytes + B + 22 * c.reader.handshakeBuffer.buf.length

/-- The same, on the way. -/
def PaidC (N a : Nat) (d : Option Decryptor) (C : Nat) (c : TlsClient) : Prop := Paid N a d C c.reader

theorem PaidC.spent {N a C B : Nat} {d : Option Decryptor} {c : TlsClient} (h : PaidC N a d C c) (ha : a ≤ 22) (hc : C ≤ B) : Spent N B c := by
  have h1 := h.1
  have h2 := Nat.mul_le_mul_right c.reader.handshakeBuffer.buf.length ha
  unfold Spent
  omega

theorem onReader_paid {N a C C' B : Nat} {d : Option Decryptor} {x : St TlsReader α} (hx : Post (Paid N a d C) x (fun _ => Paid N a d C') (Paid N a d C')) (ha : a ≤ 22) (hc : C' ≤ B) :
    Post (PaidC N a d C) (onReader x) (fun _ => PaidC N a d C') (Spent N B) := by
  intro c hP
  have h := hx c.reader hP
  simp only [TlsClient.onReader, St.zoom_run]
  generalize x.run c.reader = r at h ⊢
  obtain ⟨r, s'⟩ := r
  cases r with
  | ok v => exact h
  | err k => exact PaidC.spent (c := { c with reader := s' }) h ha hc
  | panic => exact PaidC.spent (c := { c with reader := s' }) h ha hc
  | diverge => exact PaidC.spent (c := { c with reader := s' }) h ha hc

/-- A call that does not touch the reader. -/
theorem other_paid {P : TlsReader → Prop} {I : TlsClient → Prop} {x : St TlsClient α} (hx : ∀ c, (x.run c).2.reader = c.reader) (hi : ∀ c, P c.reader → I c) :
    Post (fun c => P c.reader) x (fun _ c => P c.reader) I := by
  intro c hc
  have h := hx c
  generalize x.run c = r at h ⊢
  obtain ⟨r, c'⟩ := r
  simp only at h
  have h' : P c'.reader := by rw [h]; exact hc
  cases r with
  | ok v => exact h'
  | err k => exact hi _ h'
  | panic => exact hi _ h'
  | diverge => exact hi _ h'

theorem onWriter_reader (x : St TlsWriter α) (c : TlsClient) : ((onWriter x).run c).2.reader = c.reader := by
  simp only [onWriter, St.zoom_run]
theorem onRng_reader (x : St Rng α) (c : TlsClient) : ((onRng x).run c).2.reader = c.reader := by
  simp only [onRng, St.zoom_run]
theorem lift_reader (r : Res α) (c : TlsClient) : ((St.lift r : St TlsClient α).run c).2.reader = c.reader := rfl

theorem readHandshake_paid {N a C : Nat} {d : Option Decryptor} (hd : Overhead a d) (m : Mode) :
    Post (Paid N a d C) (readHandshake m) (fun _ => Paid N a d (C + perMessage a)) (Paid N a d (C + perMessage a)) := by
  refine Post.bind (readMessage_paid hd m) fun msg => ?_
  cases msg <;> first | exact Post.pure fun s hs => hs | exact Post.err fun s hs => hs

theorem readChangeCipherSpec_paid {N a C : Nat} {d : Option Decryptor} (hd : Overhead a d) (m : Mode) :
    Post (Paid N a d C) (readChangeCipherSpec m) (fun _ => Paid N a d (C + perMessage a)) (Paid N a d (C + perMessage a)) := by
  refine Post.bind (readMessage_paid hd m) fun msg => ?_
  cases msg <;> first | exact Post.pure fun s hs => hs | exact Post.err fun s hs => hs

/-- What the whole handshake takes at most, without the buffer. -/
def wholeHandshake : Nat := 5 * perMessage 6 + perMessage 22

theorem handshake_spent {N : Nat} (m : Mode) : Post (PaidC N 6 none 0) (TlsClient.handshake m) (fun _ => Spent N wholeHandshake) (Spent N wholeHandshake) := by
  have ho := overhead_none
  obtain ⟨p, hp⟩ : ∃ p, p = perMessage 6 := ⟨_, rfl⟩
  obtain ⟨q, hq⟩ : ∃ q, q = perMessage 22 := ⟨_, rfl⟩
  obtain ⟨w, hw⟩ : ∃ w, w = wholeHandshake := ⟨_, rfl⟩
  have hw' : w = 5 * p + q := by rw [hw, hp, hq]; rfl
  rw [← hw]
  have rh : ∀ {C}, Post (Paid N 6 none C) (readHandshake m) (fun _ => Paid N 6 none (C + p)) (Paid N 6 none (C + p)) := by
    intro C; rw [hp]; exact readHandshake_paid ho m
  have other : ∀ {α : Type} {C a : Nat} {d : Option Decryptor} {x : St TlsClient α}, (∀ c, (x.run c).2.reader = c.reader) → a ≤ 22 → C ≤ w →
      Post (PaidC N a d C) x (fun _ => PaidC N a d C) (Spent N w) := fun hx ha hc => other_paid (P := Paid N _ _ _) hx fun c h => PaidC.spent h ha hc
  have e1 : ∀ {C}, Post (Paid N 6 none C) (expectServerHello m) (fun _ => Paid N 6 none (C + p)) (Paid N 6 none (C + p)) := fun {C} =>
    Post.bind rh fun h => by cases h <;> first | exact Post.pure fun _ h => h | exact Post.err fun _ h => h
  have e2 : ∀ {C}, Post (Paid N 6 none C) (expectCertificate m) (fun _ => Paid N 6 none (C + p)) (Paid N 6 none (C + p)) := fun {C} =>
    Post.bind rh fun h => by cases h <;> first | exact Post.pure fun _ h => h | exact Post.err fun _ h => h
  have e3 : ∀ {C}, Post (Paid N 6 none C) (expectServerKeyExchange m) (fun _ => Paid N 6 none (C + p)) (Paid N 6 none (C + p)) := fun {C} =>
    Post.bind rh fun h => by cases h <;> first | exact Post.pure fun _ h => h | exact Post.err fun _ h => h
  have e4 : ∀ {C}, Post (Paid N 6 none C) (expectServerHelloDone m) (fun _ => Paid N 6 none (C + p)) (Paid N 6 none (C + p)) := fun {C} =>
    Post.bind rh fun h => by cases h <;> first | exact Post.pure fun _ h => h | exact Post.err fun _ h => h
  have s1 : Post (PaidC N 6 none 0) (sendHello m) (fun _ => PaidC N 6 none 0) (Spent N w) :=
    Post.bind (other (onRng_reader _) (by omega) (by omega)) fun _ => Post.bind (other (lift_reader _) (by omega) (by omega)) fun _ =>
    Post.bind (other (onWriter_reader _) (by omega) (by omega)) fun _ => Post.pure fun _ h => h
  have s2 : Post (PaidC N 6 none 0) (readFlight m) (fun _ => PaidC N 6 none (0 + p + p + p + p)) (Spent N w) :=
    Post.bind (onReader_paid e1 (by omega) (by omega)) fun _ => Post.bind (other (lift_reader _) (by omega) (by omega)) fun _ =>
    Post.bind (onReader_paid e2 (by omega) (by omega)) fun _ => Post.bind (onReader_paid e3 (by omega) (by omega)) fun _ =>
    Post.bind (other (onRng_reader _) (by omega) (by omega)) fun _ =>
    Post.bind (onReader_paid e4 (by omega) (by omega)) fun _ => Post.pure fun _ h => h
  have hiv : ∀ {C iv}, Post (Paid N 6 none C) (TlsReader.setIv iv) (fun _ => Paid N 6 none C) (Paid N 6 none C) := by
    intro C iv s hs
    simp only [TlsReader.setIv]
    cases s.iv <;> exact hs
  have s3 : ∀ {cr hello f}, Post (PaidC N 6 none (0 + p + p + p + p)) (sendFinished m cr hello f) (fun _ => PaidC N 6 none (0 + p + p + p + p)) (Spent N w) := by
    intro cr hello f
    have hk : ∀ {a b c}, Post (PaidC N 6 none (0 + p + p + p + p)) (installKeys m a b c) (fun _ => PaidC N 6 none (0 + p + p + p + p)) (Spent N w) := by
      intro a b c
      exact Post.bind (other (lift_reader _) (by omega) (by omega)) fun _ => Post.bind (other (lift_reader _) (by omega) (by omega)) fun _ =>
        Post.bind (other (onWriter_reader _) (by omega) (by omega)) fun _ => Post.bind (other (lift_reader _) (by omega) (by omega)) fun _ =>
        Post.bind (other (lift_reader _) (by omega) (by omega)) fun _ => Post.bind (other (lift_reader _) (by omega) (by omega)) fun _ =>
        Post.bind (other (onWriter_reader _) (by omega) (by omega)) fun _ => Post.bind (onReader_paid hiv (by omega) (by omega)) fun _ => Post.pure fun _ h => h
    exact Post.bind (other (lift_reader _) (by omega) (by omega)) fun _ => Post.bind (other (onWriter_reader _) (by omega) (by omega)) fun _ =>
      Post.bind (other (onWriter_reader _) (by omega) (by omega)) fun _ => Post.bind (other (lift_reader _) (by omega) (by omega)) fun _ =>
      Post.bind hk fun _ => Post.bind (other (lift_reader _) (by omega) (by omega)) fun _ => Post.bind (other (lift_reader _) (by omega) (by omega)) fun _ =>
      Post.bind (other (lift_reader _) (by omega) (by omega)) fun _ => Post.bind (other (onWriter_reader _) (by omega) (by omega)) fun _ => Post.pure fun _ h => h
  have s4 : ∀ {master rk msgs fin}, Post (PaidC N 6 none (0 + p + p + p + p)) (readFinished m master rk msgs fin) (fun _ => Spent N w) (Spent N w) := by
    intro master rk msgs fin
    have hcc : Post (Paid N 6 none (0 + p + p + p + p)) (readChangeCipherSpec m) (fun _ => Paid N 6 none (0 + p + p + p + p + p)) (Paid N 6 none (0 + p + p + p + p + p)) := by
      have := readChangeCipherSpec_paid (N := N) (C := 0 + p + p + p + p) ho m
      rwa [← hp] at this
    have hdec : Post (PaidC N 6 none (0 + p + p + p + p + p)) (onReader (TlsReader.setDecryptor (.chacha m rk))) (fun _ => PaidC N 22 (some (.chacha m rk)) (5 * p)) (Spent N w) := by
      intro c hc
      have h1 := hc.1
      simp only [TlsClient.onReader, St.zoom_run, TlsReader.setDecryptor, hc.2]
      exact ⟨by simp only; omega, rfl⟩
    have hfin : Post (Paid N 22 (some (.chacha m rk)) (5 * p)) (expectFinished m) (fun _ => Paid N 22 (some (.chacha m rk)) (5 * p + q)) (Paid N 22 (some (.chacha m rk)) (5 * p + q)) := by
      have := readHandshake_paid (N := N) (C := 5 * p) (overhead_chacha m rk) m
      rw [← hq] at this
      exact Post.bind this fun h => by cases h <;> first | exact Post.pure fun _ h => h | exact Post.err fun _ h => h
    refine Post.bind (onReader_paid hcc (by omega) (by omega)) fun _ => Post.bind hdec fun _ => Post.bind (onReader_paid hfin (by omega) (by omega)) fun _ => ?_
    exact (other (lift_reader _) (by omega) (by omega)).relax (fun _ _ h => PaidC.spent h (by omega) (by omega)) fun _ h => h
  exact Post.bind s1 fun _ => Post.bind s2 fun _ => Post.bind s3 fun _ => s4

/-! ### C93 -/

/-- C93: whatever the server sends, `new` takes fewer than 2^31 bytes from the transport before it returns. -/
theorem C93_bounded (m : Mode) (rd : Reader) (wr : Writer) (rng : Rng) :
    rd.bytes < (TlsClient.new m rd wr rng).2.reader.reader.bytes + 2 ^ 31 := by
  have h0 : PaidC rd.bytes 6 none 0 { reader := TlsReader.new rd, writer := TlsWriter.new wr, rng } := ⟨by show rd.bytes ≤ rd.bytes + 0 + 6 * 0; omega, rfl⟩
  have h := (handshake_spent m).any h0
  have hb := (new_bounded m rd wr rng).1
  have hfin : Spent rd.bytes wholeHandshake (TlsClient.new m rd wr rng).2 := by
    simp only [TlsClient.new]
    generalize (TlsClient.handshake m).run _ = r at h ⊢
    obtain ⟨r, c⟩ := r
    cases r with
    | err k =>
      obtain ⟨f, hf⟩ := sendTlsAlert_only m k
      simp only [St.bind_run]
      rw [hf]
      generalize f c.writer = z
      obtain ⟨z, w⟩ := z
      cases z <;> exact h
    | ok _ => exact h
    | panic => exact h
    | diverge => exact h
  have hw : wholeHandshake = 872526010 := by decide +kernel
  unfold Spent at hfin
  unfold Within at hb
  omega

end Husk
