import Verif.Spec.Wire
import Verif.Props.Codec
import Verif.Proofs.Ecdhe
/-! C89: the bytes of every message are those the RFCs prescribe. -/

namespace Husk

open Item Spec Codec

namespace WireLemmas

theorem beBytes_one (n : Nat) : beBytes 1 n = Wire.u8 n := by
  simp [beBytes, leBytes, Wire.u8]

theorem beBytes_two (n : Nat) : beBytes 2 n = Wire.u16 n := by
  simp [beBytes, leBytes, Wire.u16]

theorem beBytes_three (n : Nat) : beBytes 3 n = Wire.u24 n := by
  simp [beBytes, leBytes, Wire.u24, Nat.div_div_eq_div_mul]

/-- The item is written as these bytes, and its size is theirs. -/
def Enc [TlsItem α] (x : α) (b : Bytes) : Prop := TlsItem.write x = .ok b ∧ TlsItem.size x = b.length

theorem enc_u8 (x : UInt8) : Enc x [x] := ⟨by show Res.ok (writeNum 1 x.toNat) = _; rw [writeNum_one], rfl⟩

theorem enc_enum1 [TlsEnum α] (hw : TlsEnum.width α = 1) (x : α) : Enc x (Wire.u8 (TlsEnum.code x)) := by
  constructor
  · show Res.ok (writeNum (TlsEnum.width α) _) = _
    rw [hw, writeNum, beBytes_one]
  · show TlsEnum.width α = _
    rw [hw]; rfl

theorem enc_enum2 [TlsEnum α] (hw : TlsEnum.width α = 2) (x : α) : Enc x (Wire.u16 (TlsEnum.code x)) := by
  constructor
  · show Res.ok (writeNum (TlsEnum.width α) _) = _
    rw [hw, writeNum, beBytes_two]
  · show TlsEnum.width α = _
    rw [hw]; rfl

theorem enc_items [TlsItem α] (f : α → Bytes) (xs : List α) (h : ∀ x ∈ xs, Enc x (f x)) :
    TlsVec.writeItems xs = .ok (xs.flatMap f) ∧ TlsVec.sizes xs = (xs.flatMap f).length := by
  induction xs with
  | nil => exact ⟨rfl, rfl⟩
  | cons x xs ih =>
    obtain ⟨h1, h2⟩ := ih fun y hy => h y (by simp [hy])
    obtain ⟨h3, h4⟩ := h x (by simp)
    constructor
    · rw [TlsVec.writeItems, h3, Res.bind_ok, h1]; rfl
    · rw [TlsVec.sizes, h2, h4, List.flatMap_cons, List.length_append]

theorem enc_vec {min max : Nat} [TlsItem α] (f : α → Bytes) (v : TlsVec α min max) (h : ∀ x ∈ v.items, Enc x (f x)) :
    Enc v (beBytes (TlsVec.prefixLen max) (v.items.flatMap f).length ++ v.items.flatMap f) := by
  obtain ⟨h1, h2⟩ := enc_items f v.items h
  constructor
  · show (do let body ← TlsVec.writeItems v.items; return writeNum (TlsVec.prefixLen max) (TlsVec.sizes v.items) ++ body : Res Bytes) = _
    rw [h1, h2]; rfl
  · show TlsVec.prefixLen max + TlsVec.sizes v.items = _
    rw [h2, List.length_append, beBytes_length]

theorem flatMap_single (l : Bytes) : l.flatMap (fun x => [x]) = l := by
  induction l with
  | nil => rfl
  | cons x l ih => rw [List.flatMap_cons, ih]; rfl

theorem enc_vec8 {min max : Nat} [TlsItem α] (f : α → Bytes) (v : TlsVec α min max) (hm : TlsVec.prefixLen max = 1) (h : ∀ x ∈ v.items, Enc x (f x)) :
    Enc v (Wire.vec8 (v.items.flatMap f)) := by
  have := enc_vec f v h
  rwa [hm, beBytes_one] at this

theorem enc_vec16 {min max : Nat} [TlsItem α] (f : α → Bytes) (v : TlsVec α min max) (hm : TlsVec.prefixLen max = 2) (h : ∀ x ∈ v.items, Enc x (f x)) :
    Enc v (Wire.vec16 (v.items.flatMap f)) := by
  have := enc_vec f v h
  rwa [hm, beBytes_two] at this

theorem enc_vec24 {min max : Nat} [TlsItem α] (f : α → Bytes) (v : TlsVec α min max) (hm : TlsVec.prefixLen max = 3) (h : ∀ x ∈ v.items, Enc x (f x)) :
    Enc v (Wire.vec24 (v.items.flatMap f)) := by
  have := enc_vec f v h
  rwa [hm, beBytes_three] at this

theorem enc_opaque8 {min max : Nat} (v : TlsVec UInt8 min max) (hm : TlsVec.prefixLen max = 1) : Enc v (Wire.vec8 v.items) := by
  have := enc_vec8 _ v hm fun x _ => enc_u8 x
  rwa [flatMap_single] at this

theorem enc_opaque16 {min max : Nat} (v : TlsVec UInt8 min max) (hm : TlsVec.prefixLen max = 2) : Enc v (Wire.vec16 v.items) := by
  have := enc_vec16 _ v hm fun x _ => enc_u8 x
  rwa [flatMap_single] at this

theorem enc_opaque24 {min max : Nat} (v : TlsVec UInt8 min max) (hm : TlsVec.prefixLen max = 3) : Enc v (Wire.vec24 v.items) := by
  have := enc_vec24 _ v hm fun x _ => enc_u8 x
  rwa [flatMap_single] at this

theorem enc_array (a : TlsArray n) (h : a.data.length = n) : Enc a a.data := ⟨rfl, h.symm⟩

theorem codes : (∀ a, TlsEnum.code a = Wire.alertLevel a) ∧ (∀ a, TlsEnum.code a = Wire.alertDescription a) ∧
    (∀ a, TlsEnum.code a = Wire.hash a) ∧ (∀ a, TlsEnum.code a = Wire.signature a) ∧ (∀ a, TlsEnum.code a = Wire.compression a) ∧
    (∀ a, TlsEnum.code a = Wire.curve a) ∧ (∀ a, TlsEnum.code a = Wire.pointFormat a) ∧ (∀ a, TlsEnum.code a = Wire.certificateType a) := by
  refine ⟨?_, ?_, ?_, ?_, ?_, ?_, ?_, ?_⟩ <;> intro a <;> cases a <;> rfl

theorem enc_hash (a : HashAlgorithm) : Enc a (Wire.u8 (Wire.hash a)) := by
  rw [← codes.2.2.1]; exact enc_enum1 rfl a
theorem enc_signature (a : SignatureAlgorithm) : Enc a (Wire.u8 (Wire.signature a)) := by
  rw [← codes.2.2.2.1]; exact enc_enum1 rfl a
theorem enc_compression (a : CompressionMethod) : Enc a (Wire.u8 (Wire.compression a)) := by
  rw [← codes.2.2.2.2.1]; exact enc_enum1 rfl a
theorem enc_curve (a : NamedCurve) : Enc a (Wire.u16 (Wire.curve a)) := by
  rw [← codes.2.2.2.2.2.1]; exact enc_enum2 rfl a
theorem enc_pointFormat (a : ECPointFormat) : Enc a (Wire.u8 (Wire.pointFormat a)) := by
  rw [← codes.2.2.2.2.2.2.1]; exact enc_enum1 rfl a
theorem enc_certificateType (a : ClientCertificateType) : Enc a (Wire.u8 (Wire.certificateType a)) := by
  rw [← codes.2.2.2.2.2.2.2]; exact enc_enum1 rfl a
theorem enc_level (a : AlertLevel) : Enc a (Wire.u8 (Wire.alertLevel a)) := by
  rw [← codes.1]; exact enc_enum1 rfl a
theorem enc_description (a : AlertDescription) : Enc a (Wire.u8 (Wire.alertDescription a)) := by
  rw [← codes.2.1]; exact enc_enum1 rfl a

/-- A structure of two fields. -/
theorem enc_two [TlsItem α] [TlsItem β] [TlsItem γ] {x : α} {y : β} {z : γ} {b c : Bytes} (hx : Enc x b) (hy : Enc y c)
    (hw : TlsItem.write z = (do let p ← TlsItem.write x; let q ← TlsItem.write y; return p ++ q))
    (hs : TlsItem.size z = TlsItem.size x + TlsItem.size y) : Enc z (b ++ c) := by
  constructor
  · rw [hw, hx.1, hy.1]; rfl
  · rw [hs, hx.2, hy.2, List.length_append]

theorem enc_alert (a : Alert) : Enc a (Wire.alert a) := enc_two (enc_level _) (enc_description _) rfl rfl
theorem enc_sigHash (a : SignatureAndHashAlgorithm) : Enc a (Wire.sigHash a) := enc_two (enc_hash _) (enc_signature _) rfl rfl
theorem enc_signed (a : DigitallySigned) : Enc a (Wire.signed a) := enc_two (enc_sigHash _) (enc_opaque16 _ rfl) rfl rfl
theorem enc_version (a : ProtocolVersion) : Enc a (Wire.version a) := enc_two (enc_u8 _) (enc_u8 _) rfl rfl

theorem enc_suite (s : CipherSuite) (h : s ≠ .UnknownCipherSuite) : Enc s (Wire.suite s) := by
  cases s with
  | UnknownCipherSuite => exact absurd rfl h
  | TLS_ECDHE_RSA_WITH_CHACHA20_POLY1305_SHA256 => exact ⟨rfl, rfl⟩

theorem enc_extension (e : Extension) : Enc e (Wire.extension e) := by
  have aux : ∀ {α} [TlsItem α] {x : α} {b : Bytes} (k : Nat), Enc x b →
      (do let c ← TlsItem.write x; return writeNum 2 k ++ writeNum 2 (TlsItem.size x) ++ c : Res Bytes) = .ok (Wire.u16 k ++ Wire.vec16 b) ∧
      4 + TlsItem.size x = (Wire.u16 k ++ Wire.vec16 b).length := by
    intro α _ x b k h
    constructor
    · rw [h.1, h.2, writeNum, writeNum, beBytes_two, beBytes_two, Res.bind_ok, List.append_assoc]; rfl
    · rw [h.2]; simp [Wire.vec16, Wire.u16]; omega
  cases e with
  | elliptic_curves l => exact aux 10 (enc_vec16 _ l rfl fun x _ => enc_curve x)
  | ec_point_formats l => exact aux 11 (enc_vec8 _ l rfl fun x _ => enc_pointFormat x)
  | signature_algorithms l => exact aux 13 (enc_vec16 _ l rfl fun x _ => enc_sigHash x)
  | Unknown ty d =>
    constructor
    · show Res.ok (writeNum 2 ty.toNat ++ writeNum 2 d.length ++ d) = _
      rw [writeNum, writeNum, beBytes_two, beBytes_two, List.append_assoc]; rfl
    · show 4 + d.length = (Wire.u16 ty.toNat ++ Wire.vec16 d).length
      simp [Wire.vec16, Wire.u16]; omega

theorem enc_extensions (v : Option ExtensionVec) : Enc v (Wire.extensions v) := by
  cases v with
  | none => exact ⟨rfl, rfl⟩
  | some v => exact enc_vec16 _ v rfl fun x _ => enc_extension x

theorem enc_clientHello (h : ClientHello) (hr : h.random.data.length = 32) (hs : ∀ s ∈ h.cipherSuites.items, s ≠ .UnknownCipherSuite) :
    Enc h (Wire.clientHello h) := by
  have h1 := enc_version h.clientVersion
  have h2 := enc_array h.random hr
  have h3 := enc_opaque8 h.sessionId rfl
  have h4 := enc_vec16 _ h.cipherSuites rfl fun s hm => enc_suite s (hs s hm)
  have h5 := enc_vec8 _ h.compressionMethods rfl fun x _ => enc_compression x
  have h6 := enc_extensions h.extensions
  constructor
  · show (do
      let b1 ← TlsItem.write h.clientVersion
      let b2 ← TlsItem.write h.random
      let b3 ← TlsItem.write h.sessionId
      let b4 ← TlsItem.write h.cipherSuites
      let b5 ← TlsItem.write h.compressionMethods
      let b6 ← TlsItem.write h.extensions
      return b1 ++ (b2 ++ (b3 ++ (b4 ++ (b5 ++ b6)))) : Res Bytes) = _
    rw [h1.1, h2.1, h3.1, h4.1, h5.1, h6.1]
    simp [Wire.clientHello]
  · show TlsItem.size h.clientVersion + TlsItem.size h.random + TlsItem.size h.sessionId + TlsItem.size h.cipherSuites +
      TlsItem.size h.compressionMethods + TlsItem.size h.extensions = _
    rw [h1.2, h2.2, h3.2, h4.2, h5.2, h6.2]
    simp only [Wire.clientHello, List.length_append]

theorem enc_serverHello (h : ServerHello) (hr : h.random.data.length = 32) (hs : h.cipherSuite ≠ .UnknownCipherSuite) :
    Enc h (Wire.serverHello h) := by
  have h1 := enc_version h.serverVersion
  have h2 := enc_array h.random hr
  have h3 := enc_opaque8 h.sessionId rfl
  have h4 := enc_suite h.cipherSuite hs
  have h5 := enc_compression h.compressionMethod
  have h6 := enc_extensions h.extensions
  constructor
  · show (do
      let b1 ← TlsItem.write h.serverVersion
      let b2 ← TlsItem.write h.random
      let b3 ← TlsItem.write h.sessionId
      let b4 ← TlsItem.write h.cipherSuite
      let b5 ← TlsItem.write h.compressionMethod
      let b6 ← TlsItem.write h.extensions
      return b1 ++ (b2 ++ (b3 ++ (b4 ++ (b5 ++ b6)))) : Res Bytes) = _
    rw [h1.1, h2.1, h3.1, h4.1, h5.1, h6.1]
    simp [Wire.serverHello]
  · show TlsItem.size h.serverVersion + TlsItem.size h.random + TlsItem.size h.sessionId + TlsItem.size h.cipherSuite +
      TlsItem.size h.compressionMethod + TlsItem.size h.extensions = _
    rw [h1.2, h2.2, h3.2, h4.2, h5.2, h6.2]
    simp only [Wire.serverHello, List.length_append]

theorem enc_certificateRequest (r : CertificateRequest) : Enc r (Wire.certificateRequest r) := by
  have h1 := enc_vec8 _ r.certificateTypes rfl fun x _ => enc_certificateType x
  have h2 := enc_vec16 _ r.supportedSignatureAlgorithms rfl fun x _ => enc_sigHash x
  have h3 := enc_vec16 _ r.certificateAuthorities rfl fun x _ => enc_opaque16 x rfl
  constructor
  · show (do
      let b1 ← TlsItem.write r.certificateTypes
      let b2 ← TlsItem.write r.supportedSignatureAlgorithms
      let b3 ← TlsItem.write r.certificateAuthorities
      return b1 ++ (b2 ++ b3) : Res Bytes) = _
    rw [h1.1, h2.1, h3.1]
    simp [Wire.certificateRequest]
  · show TlsItem.size r.certificateTypes + TlsItem.size r.supportedSignatureAlgorithms + TlsItem.size r.certificateAuthorities = _
    rw [h1.2, h2.2, h3.2]
    simp only [Wire.certificateRequest, List.length_append]

theorem enc_ecParameters (p : EcParameters) : Enc p (Wire.ecParameters p) := by
  cases p with
  | named_curve c =>
    have h := enc_curve c
    constructor
    · show (do let b ← TlsItem.write c; return writeNum 1 3 ++ b : Res Bytes) = _
      rw [h.1]; rfl
    · show 1 + TlsItem.size c = _
      rw [h.2]; rfl

theorem enc_ecdhParams (p : ServerEcdhParams) : Enc p (Wire.ecdhParams p) := enc_two (enc_ecParameters _) (enc_opaque8 _ rfl) rfl rfl
theorem enc_keyExchange (k : EcdheServerKeyExchange) : Enc k (Wire.keyExchange k) := enc_two (enc_ecdhParams _) (enc_signed _) rfl rfl

theorem enc_body [TlsItem α] {x : α} {b : Bytes} (k : Nat) (h : Enc x b) : Handshake.writeBody k x = .ok (Wire.u8 k ++ Wire.vec24 b) := by
  unfold Handshake.writeBody
  rw [h.1, h.2, writeNum, writeNum, beBytes_one, beBytes_three, Res.bind_ok, List.append_assoc]; rfl

theorem write_handshake (h : Handshake) (hb : Wire.InBounds h) (hs : ∀ s ∈ suitesOf h, s ≠ .UnknownCipherSuite) :
    TlsItem.write h = .ok (Wire.handshake h) := by
  cases h with
  | hello_request x => exact enc_body (x := x) 0 ⟨rfl, rfl⟩
  | client_hello x => exact enc_body 1 (enc_clientHello x hb.1 hs)
  | server_hello x => exact enc_body 2 (enc_serverHello x hb.1 (hs _ (by simp [suitesOf])))
  | certificate x => exact enc_body 11 (enc_vec24 _ x rfl fun c _ => enc_opaque24 c rfl)
  | server_key_exchange x => exact enc_body (x := x) 12 ⟨rfl, rfl⟩
  | certificate_request x => exact enc_body 13 (enc_certificateRequest x)
  | server_hello_done x => exact enc_body (x := x) 14 ⟨rfl, rfl⟩
  | client_key_exchange x => exact enc_body (x := x) 16 ⟨rfl, rfl⟩
  | finished x => exact enc_body 20 (enc_array x hb)

/-! ### bounds -/

theorem built_iff {min max : Nat} [TlsItem α] {B : α → Prop} (f : α → Bytes) (v : TlsVec α min max)
    (h : ∀ x ∈ v.items, TlsItem.size x = (f x).length) :
    BuiltVec B v ↔ (min ≤ (v.items.flatMap f).length ∧ (v.items.flatMap f).length ≤ max) ∧ ∀ x ∈ v.items, B x := by
  have hs : TlsVec.sizes v.items = (v.items.flatMap f).length := by
    have : ∀ xs : List α, (∀ x ∈ xs, TlsItem.size x = (f x).length) → TlsVec.sizes xs = (xs.flatMap f).length := by
      intro xs
      induction xs with
      | nil => intro _; rfl
      | cons x xs ih =>
        intro hx
        rw [TlsVec.sizes, ih (fun y hy => hx y (by simp [hy])), hx x (by simp), List.flatMap_cons, List.length_append]
    exact this _ h
  rw [← hs]
  constructor
  · intro hb
    exact ⟨bounds_of_built hb, hb.2⟩
  · intro ⟨h1, h2⟩
    exact built_of_bounds h2 h1.1 h1.2

theorem built_width {min max : Nat} [TlsItem α] (w : Nat) (v : TlsVec α min max) (h : ∀ x : α, TlsItem.size x = w) :
    BuiltVec Any v ↔ min ≤ w * v.items.length ∧ w * v.items.length ≤ max := by
  rw [built_iff (fun _ => List.replicate w 0) v (fun x _ => by simp [h])]
  have : (v.items.flatMap fun _ => List.replicate w (0 : UInt8)).length = w * v.items.length := by
    induction v.items with
    | nil => simp
    | cons x xs ih => rw [List.flatMap_cons, List.length_append, ih, List.length_replicate, List.length_cons, Nat.mul_succ]; omega
  rw [this]
  exact ⟨fun h => h.1, fun h => ⟨h, fun _ _ => trivial⟩⟩

theorem built_array_iff (a : TlsArray n) : BuiltArray a ↔ a.data.length = n :=
  ⟨fun h => wf_array h, fun h => built_array h⟩

theorem built_ext_iff (e : Extension) : BuiltExt e ↔ Wire.ExtensionInBounds e := by
  cases e with
  | elliptic_curves l =>
    show BuiltVec Any l ↔ _
    rw [built_width 2 l (fun _ => rfl)]
    simp only [Wire.ExtensionInBounds]; omega
  | ec_point_formats l =>
    show BuiltVec Any l ↔ _
    rw [built_width 1 l (fun _ => rfl)]
    simp only [Wire.ExtensionInBounds]; omega
  | signature_algorithms l =>
    show BuiltVec Any l ↔ _
    rw [built_width 2 l (fun _ => rfl)]
    simp only [Wire.ExtensionInBounds]; omega
  | Unknown ty d => exact Iff.rfl

theorem built_exts_iff (v : Option ExtensionVec) : BuiltExts v ↔ Wire.ExtensionsInBounds v := by
  cases v with
  | none => exact Iff.rfl
  | some v =>
    show BuiltVec BuiltExt v ↔ _
    rw [built_iff Wire.extension v fun x _ => (enc_extension x).2]
    show _ ↔ (_ ∧ _)
    constructor
    · intro h
      exact ⟨h.1.2, fun e he => (built_ext_iff e).mp (h.2 e he)⟩
    · intro h
      exact ⟨⟨Nat.zero_le _, h.1⟩, fun e he => (built_ext_iff e).mpr (h.2 e he)⟩

end WireLemmas

open WireLemmas

/-! ### C89 -/

/-- C89: the code points of every enum. -/
theorem C89_code_points : (∀ a, TlsEnum.code a = Wire.alertLevel a) ∧ (∀ a, TlsEnum.code a = Wire.alertDescription a) ∧
    (∀ a, TlsEnum.code a = Wire.hash a) ∧ (∀ a, TlsEnum.code a = Wire.signature a) ∧ (∀ a, TlsEnum.code a = Wire.compression a) ∧
    (∀ a, TlsEnum.code a = Wire.curve a) ∧ (∀ a, TlsEnum.code a = Wire.pointFormat a) ∧ (∀ a, TlsEnum.code a = Wire.certificateType a) := codes

/-- C89: the messages the constructors and the decoder produce are those within the bounds the RFCs give. -/
theorem C89_bounds (h : Handshake) : BuiltHandshake h ↔ Wire.InBounds h := by
  cases h with
  | hello_request x => exact Iff.rfl
  | client_hello x =>
    show (BuiltArray _ ∧ BuiltVec Any _ ∧ BuiltVec Any _ ∧ BuiltVec Any _ ∧ BuiltExts _) ↔ _
    rw [built_array_iff, built_width 1 x.sessionId (fun _ => rfl), built_width 2 x.cipherSuites (fun _ => rfl),
      built_width 1 x.compressionMethods (fun _ => rfl), built_exts_iff]
    simp only [Wire.InBounds]
    constructor
    · rintro ⟨h1, h2, h3, h4, h5⟩
      exact ⟨h1, by omega, by omega, by omega, h5⟩
    · rintro ⟨h1, h2, h3, h4, h5⟩
      exact ⟨h1, by omega, by omega, by omega, h5⟩
  | server_hello x =>
    show (BuiltArray _ ∧ BuiltVec Any _ ∧ BuiltExts _) ↔ _
    rw [built_array_iff, built_width 1 x.sessionId (fun _ => rfl), built_exts_iff]
    simp only [Wire.InBounds]
    constructor
    · rintro ⟨h1, h2, h5⟩
      exact ⟨h1, by omega, h5⟩
    · rintro ⟨h1, h2, h5⟩
      exact ⟨h1, by omega, h5⟩
  | certificate x =>
    show BuiltVec (BuiltVec Any) x ↔ _
    rw [built_iff (fun c => Wire.vec24 c.items) x fun c _ => (enc_opaque24 c rfl).2]
    simp only [Wire.InBounds]
    constructor
    · intro h
      refine ⟨h.1.2, fun c hc => ?_⟩
      have := (built_width 1 c (fun _ => rfl)).mp (h.2 c hc)
      omega
    · intro h
      refine ⟨⟨Nat.zero_le _, h.1⟩, fun c hc => (built_width 1 c (fun _ => rfl)).mpr ?_⟩
      have := h.2 c hc
      omega
  | server_key_exchange x => exact Iff.rfl
  | certificate_request x =>
    show (BuiltVec Any _ ∧ BuiltVec Any _ ∧ BuiltVec (BuiltVec Any) _) ↔ _
    rw [built_width 1 x.certificateTypes (fun _ => rfl), built_width 2 x.supportedSignatureAlgorithms (fun _ => rfl),
      built_iff (fun c => Wire.vec16 c.items) x.certificateAuthorities fun c _ => (enc_opaque16 c rfl).2]
    simp only [Wire.InBounds]
    constructor
    · rintro ⟨h1, h2, h3⟩
      refine ⟨by omega, by omega, h3.1.2, fun c hc => ?_⟩
      have := (built_width 1 c (fun _ => rfl)).mp (h3.2 c hc)
      omega
    · rintro ⟨h1, h2, h3, h4⟩
      refine ⟨by omega, by omega, ⟨Nat.zero_le _, h3⟩, fun c hc => (built_width 1 c (fun _ => rfl)).mpr ?_⟩
      have := h4 c hc
      omega
  | server_hello_done x => exact Iff.rfl
  | client_key_exchange x => exact Iff.rfl
  | finished x => exact built_array_iff x

/-- C89: a message with no unknown cipher suite is written as the RFCs prescribe. -/
theorem C89_written (h : Handshake) (hb : Wire.InBounds h) (hs : ∀ s ∈ suitesOf h, s ≠ .UnknownCipherSuite) :
    TlsItem.write h = .ok (Wire.handshake h) := write_handshake h hb hs

/-- C89: the bytes the RFCs prescribe for a message are read as that message. -/
theorem C89_read (h : Handshake) (hb : Wire.InBounds h) (hs : ∀ s ∈ suitesOf h, s ≠ .UnknownCipherSuite)
    (hn : ∀ e ∈ extensionsOf h, NotShadowed e) : (TlsItem.read (α := Handshake)).run (Wire.handshake h) = (.ok h, []) :=
  C01_roundtrip_partial h _ ((C89_bounds h).mpr hb) hn (write_handshake h hb hs)

/-- C89: whatever is accepted is a message within bounds, in the format of the RFCs but for the length field (which is ignored) and bytes
after an extension block (which are dropped, see C03). -/
theorem C89_accepted (bs rest : Bytes) (h : Handshake) (hr : (TlsItem.read (α := Handshake)).run bs = (.ok h, rest))
    (hs : ∀ s ∈ suitesOf h, s ≠ .UnknownCipherSuite) :
    Wire.InBounds h ∧ ∃ len junk, len < 2 ^ 24 ∧ bs = Wire.u8 (Wire.handshakeType h) ++ Wire.u24 len ++ Wire.body h ++ junk ∧
      (¬ HasExtensionBlock h → junk = []) := by
  have hb := (C89_bounds h).mp (C05_decoded_handshake bs rest h hr).1
  obtain ⟨len, body, junk, h1, h2, h3, h4⟩ := C03_reserialise bs h rest hr
  have h5 := h4 _ (write_handshake h hb hs)
  have ht : [typeOf h] = Wire.u8 (Wire.handshakeType h) := by cases h <;> rfl
  have hbody : body = Wire.body h := by
    have h6 : Wire.u8 (Wire.handshakeType h) ++ (Wire.u24 (Wire.body h).length ++ Wire.body h) =
        [typeOf h] ++ (beBytes 3 body.length ++ body) := by simpa [Wire.handshake, Wire.vec24] using h5
    rw [← ht] at h6
    exact ((List.append_inj (List.append_cancel_left h6) (by simp [Wire.u24])).2).symm
  refine ⟨hb, len, junk, h1, ?_, h3⟩
  rw [h2, hbody, ← ht, beBytes_three]
  simp

/-- C89: alerts. -/
theorem C89_alert (a : Alert) (rest : Bytes) : TlsItem.write a = .ok (Wire.alert a) ∧
    (TlsItem.read (α := Alert)).run (Wire.alert a ++ rest) = (.ok a, rest) :=
  ⟨(enc_alert a).1, LawfulItem.read_write a _ rest trivial (enc_alert a).1⟩

/-- C89: the body of an ECDHE ServerKeyExchange; the read leaves what follows. -/
theorem C89_key_exchange (k : EcdheServerKeyExchange) (rest : Bytes) (h1 : 1 ≤ k.params.pub.items.length) (h2 : k.params.pub.items.length ≤ 255)
    (h3 : k.signed_params.signature.items.length ≤ 65535) : TlsItem.write k = .ok (Wire.keyExchange k) ∧
    (TlsItem.read (α := EcdheServerKeyExchange)).run (Wire.keyExchange k ++ rest) = (.ok k, rest) := by
  refine ⟨(enc_keyExchange k).1, LawfulItem.read_write k _ rest ?_ (enc_keyExchange k).1⟩
  exact ⟨wf_of_built (fun _ _ => trivial) ((built_width 1 k.params.pub (fun _ => rfl)).mpr (by omega)),
    wf_of_built (fun _ _ => trivial) ((built_width 1 k.signed_params.signature (fun _ => rfl)).mpr (by omega))⟩

/-- C89: whatever is accepted as the body of an ECDHE ServerKeyExchange has that format. -/
theorem C89_key_exchange_accepted (bs rest : Bytes) (k : EcdheServerKeyExchange)
    (hr : (TlsItem.read (α := EcdheServerKeyExchange)).run bs = (.ok k, rest)) :
    bs = Wire.keyExchange k ++ rest ∧ 1 ≤ k.params.pub.items.length ∧ k.params.pub.items.length ≤ 255 ∧
      k.signed_params.signature.items.length ≤ 65535 := by
  obtain ⟨hw, b, h1, _, h2⟩ := LawfulItem.write_read bs rest k hr
  have h3 := (built_width 1 k.params.pub (fun _ => rfl)).mp (built_of_wf (fun _ _ => trivial) hw.1)
  have h4 := (built_width 1 k.signed_params.signature (fun _ => rfl)).mp (built_of_wf (fun _ _ => trivial) hw.2)
  rw [h2 _ (enc_keyExchange k).1]
  exact ⟨h1, by omega, by omega, by omega⟩

/-- A certificate request. -/
def sampleRequest : Handshake := .certificate_request
  { certificateTypes := ⟨[.rsa_sign]⟩, supportedSignatureAlgorithms := ⟨[⟨.sha256, .rsa⟩, ⟨.sha1, .ecdsa⟩]⟩,
    certificateAuthorities := ⟨[⟨[7, 8, 9]⟩]⟩ }

example : Wire.InBounds sampleRequest ∧ (∀ s ∈ suitesOf sampleRequest, s ≠ .UnknownCipherSuite) ∧ (∀ e ∈ extensionsOf sampleRequest, NotShadowed e) ∧
    Wire.handshake sampleRequest = [13, 0, 0, 15, 1, 1, 0, 4, 4, 1, 2, 3, 0, 5, 0, 3, 7, 8, 9] := by
  refine ⟨⟨by decide, by decide, by decide, by decide⟩, by simp [suitesOf, sampleRequest], by simp [extensionsOf, sampleRequest], by decide⟩

example : Wire.InBounds sampleHello ∧ Wire.handshake sampleHello = [1, 0, 0, 72, 3, 3] ++ List.replicate 32 7 ++ [0, 0, 2, 0xcc, 0xa8, 1, 0,
    0, 29, 0, 10, 0, 4, 0, 2, 0, 23, 0, 11, 0, 2, 1, 0, 0, 13, 0, 4, 0, 2, 4, 1, 0, 0, 0, 3, 1, 2, 3] := by
  refine ⟨⟨by decide, by decide, by decide, by decide, by decide, ?_⟩, by decide⟩
  intro e he
  simp at he
  rcases he with rfl | rfl | rfl | rfl <;> simp [Wire.ExtensionInBounds]

end Husk
