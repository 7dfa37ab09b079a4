import Verif.Model.Ecdhe
/-! With which errors decoding fails. -/

namespace Husk

open Item

/-- Decoding `x` fails only for want of bytes, or because of a value or a length that is not allowed. -/
def DecodesTo (x : P α) : Prop := ∀ bs k, (x.run bs).1 = .err k → k = .IoFailure ∨ k = .DecodeError

namespace DecodesTo

theorem pure (a : α) : DecodesTo (pure a : P α) := by intro bs k h; cases h

theorem bind {x : P α} {f : α → P β} (hx : DecodesTo x) (hf : ∀ a, DecodesTo (f a)) : DecodesTo (x >>= f) := by
  intro bs k h
  rw [St.bind_run] at h
  rcases hr : x.run bs with ⟨r, bs'⟩
  rw [hr] at h
  cases r with
  | ok a => exact hf a bs' k h
  | err k' => simp only [Res.err.injEq] at h; exact hx bs k (by rw [hr, h])
  | panic => cases h
  | diverge => cases h

theorem ite {p : Prop} [Decidable p] {x y : P α} (hx : DecodesTo x) (hy : DecodesTo y) : DecodesTo (if p then x else y) := by
  split
  · exact hx
  · exact hy

theorem decodeError : DecodesTo (St.err .DecodeError : P α) := by intro bs k h; cases h; exact Or.inr rfl

theorem lift {r : Res α} (h : ∀ k, r = .err k → k = .IoFailure ∨ k = .DecodeError) : DecodesTo (St.lift r : P α) := fun _ k hk => h k hk

theorem readExact (n : Nat) : DecodesTo (Item.readExact n) := by
  intro bs k h
  simp only [Item.readExact] at h
  split at h
  · cases h
  · cases h; exact Or.inl rfl

theorem readToEnd : DecodesTo Item.readToEnd := by intro bs k h; cases h

theorem readNum (k : Nat) : DecodesTo (Item.readNum k) := bind (readExact k) fun _ => pure _

end DecodesTo

/-- Types whose decoding does. -/
class Decodable' (α : Type) [TlsItem α] : Prop where
  kinds : DecodesTo (TlsItem.read (α := α))

open DecodesTo

instance : Decodable' UInt8 := ⟨bind (readNum 1) fun _ => pure _⟩

instance [TlsEnum α] : Decodable' α where
  kinds := by
    refine bind (readNum _) fun n => ?_
    split
    · exact pure _
    · exact decodeError

instance : Decodable' (TlsArray n) := ⟨bind (readExact n) fun _ => pure _⟩

theorem readItems_kinds [TlsItem α] [Decodable' α] (selfSize fuel : Nat) : ∀ size (acc : List α), DecodesTo (TlsVec.readItems selfSize fuel size acc) := by
  induction fuel with
  | zero =>
    intro size acc
    rw [TlsVec.readItems.eq_def]
    refine ite ?_ (ite decodeError (pure _))
    intro bs k h
    cases h
  | succ fuel ih =>
    intro size acc
    rw [TlsVec.readItems.eq_def]
    exact ite (bind Decodable'.kinds fun _ => ih _ _) (ite decodeError (pure _))

theorem vecNew_kinds [TlsItem α] (min max : Nat) (v : List α) (k : TlsErrorKind) (h : TlsVec.new min max v = .err k) : k = .IoFailure ∨ k = .DecodeError := by
  simp only [TlsVec.new] at h
  split at h
  · cases h; exact Or.inr rfl
  · split at h
    · cases h; exact Or.inr rfl
    · cases h

instance [TlsItem α] [Decodable' α] {min max : Nat} : Decodable' (TlsVec α min max) :=
  ⟨bind (readNum _) fun n => bind (readItems_kinds n n 0 []) fun _ => lift (vecNew_kinds min max _)⟩

instance [TlsItem α] [Decodable' α] : Decodable' (Option α) where
  kinds := by
    refine bind readToEnd fun rest => ite (pure _) (bind (lift fun k h => ?_) fun _ => pure _)
    exact Decodable'.kinds rest k h

instance : Decodable' DummyItem := ⟨pure _⟩
instance : Decodable' ObscureData := ⟨bind readToEnd fun _ => pure _⟩
instance : Decodable' CipherSuite := ⟨bind (readNum 1) fun _ => bind (readNum 1) fun _ => ite (pure _) (pure _)⟩
instance : Decodable' ProtocolVersion := ⟨bind Decodable'.kinds fun _ => bind Decodable'.kinds fun _ => pure _⟩
instance : Decodable' SignatureAndHashAlgorithm := ⟨bind Decodable'.kinds fun _ => bind Decodable'.kinds fun _ => pure _⟩
instance : Decodable' DigitallySigned := ⟨bind Decodable'.kinds fun _ => bind Decodable'.kinds fun _ => pure _⟩

theorem extensionBody_kinds [TlsItem α] [Decodable' α] (n : Nat) (mk : α → Extension) : DecodesTo (Extension.readBody α n mk) :=
  bind Decodable'.kinds fun _ => ite decodeError (pure _)

instance : Decodable' Extension :=
  ⟨bind (readNum 2) fun _ => bind (readNum 2) fun _ =>
    ite (extensionBody_kinds _ _) (ite (extensionBody_kinds _ _) (ite (extensionBody_kinds _ _) (bind (readExact _) fun _ => pure _)))⟩

instance : Decodable' ClientHello :=
  ⟨bind Decodable'.kinds fun _ => bind Decodable'.kinds fun _ => bind Decodable'.kinds fun _ => bind Decodable'.kinds fun _ => bind Decodable'.kinds fun _ =>
    bind Decodable'.kinds fun _ => pure _⟩
instance : Decodable' ServerHello :=
  ⟨bind Decodable'.kinds fun _ => bind Decodable'.kinds fun _ => bind Decodable'.kinds fun _ => bind Decodable'.kinds fun _ => bind Decodable'.kinds fun _ =>
    bind Decodable'.kinds fun _ => pure _⟩
instance : Decodable' CertificateRequest := ⟨bind Decodable'.kinds fun _ => bind Decodable'.kinds fun _ => bind Decodable'.kinds fun _ => pure _⟩

instance : Decodable' EcParameters := ⟨bind (readNum 1) fun _ => ite (bind Decodable'.kinds fun _ => pure _) decodeError⟩
instance : Decodable' ServerEcdhParams := ⟨bind Decodable'.kinds fun _ => bind Decodable'.kinds fun _ => pure _⟩
instance : Decodable' EcdheServerKeyExchange := ⟨bind Decodable'.kinds fun _ => bind Decodable'.kinds fun _ => pure _⟩

/-- The numbers of the handshake messages that are known. -/
def knownTypes : List Nat := [0, 1, 2, 11, 12, 13, 14, 16, 20]

theorem bodyOf_kinds [TlsItem α] [Decodable' α] (mk : α → Handshake) : DecodesTo (Handshake.readBody α mk) := bind Decodable'.kinds fun _ => pure _

theorem readArm_kinds (ty : Nat) (h : ty ∈ knownTypes) : DecodesTo (Handshake.readArm ty) := by
  simp only [knownTypes, List.mem_cons, List.not_mem_nil, or_false] at h
  rcases h with rfl | rfl | rfl | rfl | rfl | rfl | rfl | rfl | rfl <;> exact bodyOf_kinds _

theorem readArm_unknown (ty : Nat) (h : ty ∉ knownTypes) : Handshake.readArm ty = St.err .UnexpectedMessage := by
  simp only [knownTypes, List.mem_cons, List.not_mem_nil, or_false, not_or] at h
  obtain ⟨h0, h1, h2, h3, h4, h5, h6, h7, h8⟩ := h
  rw [Handshake.readArm, if_neg h0, if_neg h1, if_neg h2, if_neg h3, if_neg h4, if_neg h5, if_neg h6, if_neg h7, if_neg h8]

/-- What is wrong with the body of a handshake message of type `ty`, and the error reported: it ends too early; a value in it, or a length, is not allowed; the type
is not known; it goes on after its end. -/
inductive BadBody (ty : UInt8) (body : Bytes) : TlsErrorKind → Prop
  | short : ty.toNat ∈ knownTypes → ((Handshake.readArm ty.toNat).run body).1 = .err .IoFailure → BadBody ty body .IoFailure
  | value : ty.toNat ∈ knownTypes → ((Handshake.readArm ty.toNat).run body).1 = .err .DecodeError → BadBody ty body .DecodeError
  | type : ty.toNat ∉ knownTypes → BadBody ty body .UnexpectedMessage
  | long (h : Handshake) (x : UInt8) (rest : Bytes) : ty.toNat ∈ knownTypes → (Handshake.readArm ty.toNat).run body = (.ok h, x :: rest) → BadBody ty body .InternalError

/-- A message with three bytes of length, decoded with an error. -/
theorem handshakeRead_err {ty : UInt8} {len body : Bytes} (hl : len.length = 3) {k : TlsErrorKind}
    (h : ((TlsItem.read (α := Handshake)).run (ty :: (len ++ body))).1 = .err k) : BadBody ty body k := by
  have e1 : (Item.readNum 1).run (ty :: (len ++ body)) = (.ok ty.toNat, len ++ body) := by
    rw [Item.readNum, St.bind_of_ok (s' := len ++ body) (a := [ty]) (by simp [Item.readExact]), St.pure_run]
    simp [beNat, leNat]
  have e2 : (Item.readNum 3).run (len ++ body) = (.ok (beNat len), body) := by
    rw [Item.readNum, St.bind_of_ok (s' := body) (a := len) (by simp [Item.readExact, hl]), St.pure_run]
  have h' : ((Item.readNum 1 >>= fun ty => Item.readNum 3 >>= fun _ => Handshake.readArm ty >>= fun ret => Handshake.checkEnd ret : P Handshake).run (ty :: (len ++ body))).1 = .err k := h
  rw [St.bind_of_ok e1, St.bind_of_ok e2, St.bind_run] at h'
  by_cases hk : ty.toNat ∈ knownTypes
  · rcases hr : (Handshake.readArm ty.toNat).run body with ⟨r, rest⟩
    rw [hr] at h'
    cases r with
    | ok a =>
      cases rest with
      | nil =>
        simp only [Handshake.checkEnd] at h'
        rw [show (Item.readNum 1).run [] = (.err .IoFailure, []) from rfl] at h'
        cases h'
      | cons x rest =>
        simp only [Handshake.checkEnd] at h'
        rw [show (Item.readNum 1).run (x :: rest) = (.ok (beNat [x]), rest) by
          rw [Item.readNum, St.bind_of_ok (s' := rest) (a := [x]) (by simp [Item.readExact]), St.pure_run]] at h'
        cases h'
        exact .long a x rest hk hr
    | err k' =>
      simp only [Res.err.injEq] at h'
      subst h'
      rcases readArm_kinds _ hk body k' (by rw [hr]) with rfl | rfl
      · exact .short hk (by rw [hr])
      · exact .value hk (by rw [hr])
    | panic => cases h'
    | diverge => cases h'
  · rw [readArm_unknown _ hk] at h'
    cases h'
    exact .type hk

end Husk
