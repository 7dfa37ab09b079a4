import Verif.Proofs.Handshake
/-! C01-C08: serialisation. -/

namespace Husk

open Item Spec

/-! ### what the constructors guarantee -/

namespace Codec

theorem bounds_of_built {min max : Nat} [TlsItem α] {B : α → Prop} {v : TlsVec α min max} (h : BuiltVec B v) :
    min ≤ TlsVec.sizes v.items ∧ TlsVec.sizes v.items ≤ max := by
  obtain ⟨⟨items, hi⟩, _⟩ := h
  obtain ⟨rfl, h1, h2⟩ := TlsVec.new_ok_iff.mp hi
  exact ⟨h1, h2⟩

theorem wf_of_built {min max : Nat} [TlsItem α] [WFItem α] {B : α → Prop} (hB : ∀ x, B x → wf x) {v : TlsVec α min max}
    (h : BuiltVec B v) : wf v :=
  ⟨fun x hx => hB x (h.2 x hx), bounds_of_built h⟩

theorem wf_array {a : TlsArray n} (h : BuiltArray a) : wf a := by
  obtain ⟨v, hv⟩ := h
  unfold TlsArray.new at hv
  split at hv
  · simp at hv
  · rename_i hl
    simp at hv
    subst hv
    show v.length = n
    omega

theorem size_le_sizes [TlsItem α] {xs : List α} {x : α} (h : x ∈ xs) : TlsItem.size x ≤ TlsVec.sizes xs := by
  induction xs with
  | nil => simp at h
  | cons y ys ih =>
    rw [TlsVec.sizes]
    rcases List.mem_cons.mp h with rfl | h
    · omega
    · have := ih h; omega

theorem wf_exts {v : ExtensionVec} (h : BuiltVec BuiltExt v) (hs : ∀ e ∈ v.items, NotShadowed e) : wf v := by
  have hb := bounds_of_built h
  refine ⟨fun e he => ⟨?_, ?_⟩, hb⟩
  · have h1 := size_le_sizes he
    have h2 : TlsItem.size e = 4 + e.bodySize := rfl
    omega
  · have h1 := h.2 e he
    have h2 := hs e he
    cases e with
    | elliptic_curves l => exact wf_of_built (fun _ _ => trivial) h1
    | ec_point_formats l => exact wf_of_built (fun _ _ => trivial) h1
    | signature_algorithms l => exact wf_of_built (fun _ _ => trivial) h1
    | Unknown ty d => exact h2

theorem wf_opt {v : Option ExtensionVec} (h : BuiltExts v) (hs : ∀ e ∈ (v.map TlsVec.items).getD [], NotShadowed e) : wf v := by
  cases v with
  | none => trivial
  | some v => exact wf_exts h (by simpa using hs)

theorem wf_handshake {h : Handshake} (hb : BuiltHandshake h) (hs : ∀ e ∈ extensionsOf h, NotShadowed e) : wf h := by
  cases h with
  | hello_request b => trivial
  | client_hello b =>
    obtain ⟨h1, h2, h3, h4, h5⟩ := hb
    exact ⟨wf_array h1, wf_of_built (fun _ _ => trivial) h2, wf_of_built (fun _ _ => trivial) h3,
      wf_of_built (fun _ _ => trivial) h4, wf_opt h5 hs⟩
  | server_hello b =>
    obtain ⟨h1, h2, h5⟩ := hb
    exact ⟨wf_array h1, wf_of_built (fun _ _ => trivial) h2, wf_opt h5 hs⟩
  | certificate b => exact wf_of_built (fun _ h => wf_of_built (fun _ _ => trivial) h) hb
  | server_key_exchange b => trivial
  | certificate_request b =>
    obtain ⟨h1, h2, h3⟩ := hb
    exact ⟨wf_of_built (fun _ _ => trivial) h1, wf_of_built (fun _ _ => trivial) h2,
      wf_of_built (fun _ h => wf_of_built (fun _ _ => trivial) h) h3⟩
  | server_hello_done b => trivial
  | client_key_exchange b => trivial
  | finished b => exact wf_array hb

theorem built_of_bounds {min max : Nat} [TlsItem α] {B : α → Prop} {v : TlsVec α min max} (h : ∀ x ∈ v.items, B x)
    (h1 : min ≤ TlsVec.sizes v.items) (h2 : TlsVec.sizes v.items ≤ max) : BuiltVec B v :=
  ⟨⟨v.items, TlsVec.new_ok_iff.mpr ⟨rfl, h1, h2⟩⟩, h⟩

theorem built_of_wf {min max : Nat} [TlsItem α] [WFItem α] {B : α → Prop} (hB : ∀ x : α, wf x → B x) {v : TlsVec α min max}
    (h : wf v) : BuiltVec B v :=
  built_of_bounds (fun x hx => hB x (h.1 x hx)) h.2.1 h.2.2

theorem built_array {a : TlsArray n} (h : wf a) : BuiltArray a :=
  ⟨a.data, by
    have : a.data.length = n := h
    unfold TlsArray.new
    rw [if_neg (by simp [this])]⟩

theorem built_opt {v : Option ExtensionVec} (h : wf v) : BuiltExts v ∧ ∀ e ∈ (v.map TlsVec.items).getD [], NotShadowed e := by
  cases v with
  | none => exact ⟨trivial, by simp⟩
  | some v =>
    refine ⟨built_of_wf ?_ h, ?_⟩
    · intro e he
      cases e with
      | elliptic_curves l => exact built_of_wf (fun _ _ => trivial) he.2
      | ec_point_formats l => exact built_of_wf (fun _ _ => trivial) he.2
      | signature_algorithms l => exact built_of_wf (fun _ _ => trivial) he.2
      | Unknown ty d => trivial
    · intro e he
      have := (h.1 e (by simpa using he)).2
      cases e <;> first | trivial | exact this

theorem built_handshake {h : Handshake} (hw : wf h) : BuiltHandshake h ∧ ∀ e ∈ extensionsOf h, NotShadowed e := by
  cases h with
  | client_hello b =>
    obtain ⟨h1, h2, h3, h4, h5⟩ := hw
    exact ⟨⟨built_array h1, built_of_wf (fun _ _ => trivial) h2, built_of_wf (fun _ _ => trivial) h3,
      built_of_wf (fun _ _ => trivial) h4, (built_opt h5).1⟩, (built_opt h5).2⟩
  | server_hello b =>
    obtain ⟨h1, h2, h5⟩ := hw
    exact ⟨⟨built_array h1, built_of_wf (fun _ _ => trivial) h2, (built_opt h5).1⟩, (built_opt h5).2⟩
  | hello_request b => exact ⟨trivial, by simp [extensionsOf]⟩
  | certificate b => exact ⟨built_of_wf (fun _ h => built_of_wf (fun _ _ => trivial) h) hw, by simp [extensionsOf]⟩
  | server_key_exchange b => exact ⟨trivial, by simp [extensionsOf]⟩
  | certificate_request b =>
    obtain ⟨h1, h2, h3⟩ := hw
    exact ⟨⟨built_of_wf (fun _ _ => trivial) h1, built_of_wf (fun _ _ => trivial) h2,
      built_of_wf (fun _ h => built_of_wf (fun _ _ => trivial) h) h3⟩, by simp [extensionsOf]⟩
  | server_hello_done b => exact ⟨trivial, by simp [extensionsOf]⟩
  | client_key_exchange b => exact ⟨trivial, by simp [extensionsOf]⟩
  | finished b => exact ⟨built_array hw, by simp [extensionsOf]⟩

/-! ### writing succeeds -/

/-- `tls_write` cannot fail on this value. -/
def Writes [TlsItem α] (x : α) : Prop := ∃ b, TlsItem.write x = .ok b

theorem writes_u8 (x : UInt8) : Writes x := ⟨_, rfl⟩
theorem writes_enum [TlsEnum α] (x : α) : Writes x := ⟨_, rfl⟩
theorem writes_array (x : TlsArray n) : Writes x := ⟨_, rfl⟩

theorem writes_items [TlsItem α] {xs : List α} (h : ∀ x ∈ xs, Writes x) : ∃ b, TlsVec.writeItems xs = .ok b := by
  induction xs with
  | nil => exact ⟨_, rfl⟩
  | cons x xs ih =>
    obtain ⟨b1, h1⟩ := h x (by simp)
    obtain ⟨b2, h2⟩ := ih (fun y hy => h y (by simp [hy]))
    exact ⟨b1 ++ b2, by rw [TlsVec.writeItems, h1, Res.bind_ok, h2]; rfl⟩

theorem writes_vec {min max : Nat} [TlsItem α] {v : TlsVec α min max} (h : ∀ x ∈ v.items, Writes x) : Writes v := by
  obtain ⟨b, hb⟩ := writes_items h
  exact ⟨writeNum (TlsVec.prefixLen max) (TlsVec.sizes v.items) ++ b, by simp only [TlsItem.write]; rw [hb]; rfl⟩

theorem writes_sha (x : SignatureAndHashAlgorithm) : Writes x := ⟨_, rfl⟩

theorem writes_ext (e : Extension) : Writes e := by
  have aux : ∀ {min max : Nat} {α} [TlsItem α] (v : TlsVec α min max) (f : Bytes → Bytes), (∀ x : α, Writes x) →
      ∃ b, (do let b ← TlsItem.write v; return f b : Res Bytes) = .ok b := by
    intro min max α _ v f hx
    obtain ⟨b, hb⟩ := writes_vec (v := v) (fun x _ => hx x)
    exact ⟨f b, by rw [hb]; rfl⟩
  cases e with
  | elliptic_curves l => exact aux l _ writes_enum
  | ec_point_formats l => exact aux l _ writes_enum
  | signature_algorithms l => exact aux l _ writes_sha
  | Unknown ty d => exact ⟨_, rfl⟩

theorem writes_exts (v : Option ExtensionVec) : Writes v := by
  cases v with
  | none => exact ⟨_, rfl⟩
  | some v => exact writes_vec (v := v) (fun e _ => writes_ext e)

theorem writes_suite {s : CipherSuite} (h : s ≠ .UnknownCipherSuite) : Writes s := by
  cases s
  · exact ⟨_, rfl⟩
  · exact absurd rfl h

theorem writes_body [TlsItem α] {x : α} (h : Writes x) (n : Nat) : ∃ b, Handshake.writeBody n x = .ok b := by
  obtain ⟨b, hb⟩ := h
  exact ⟨_, by unfold Handshake.writeBody; rw [hb]; rfl⟩

theorem writeNum_one (x : UInt8) : writeNum 1 x.toNat = [x] := by
  simp [writeNum, beBytes, leBytes]

theorem writes_version (v : ProtocolVersion) : TlsItem.write v = .ok [v.major, v.minor] := by
  simp only [TlsItem.write]
  simp [writeNum_one]

theorem writes_client_hello {h : ClientHello} (hs : ∀ s ∈ h.cipherSuites.items, s ≠ .UnknownCipherSuite) : Writes h := by
  obtain ⟨b3, h3⟩ := writes_vec (v := h.sessionId) (fun x _ => writes_u8 x)
  obtain ⟨b4, h4⟩ := writes_vec (v := h.cipherSuites) (fun x hx => writes_suite (hs x hx))
  obtain ⟨b5, h5⟩ := writes_vec (v := h.compressionMethods) (fun x _ => writes_enum x)
  obtain ⟨b6, h6⟩ := writes_exts h.extensions
  refine ⟨[h.clientVersion.major, h.clientVersion.minor] ++ (h.random.data ++ (b3 ++ (b4 ++ (b5 ++ b6)))), ?_⟩
  show (do
    let b1 ← TlsItem.write h.clientVersion
    let b2 ← TlsItem.write h.random
    let b3 ← TlsItem.write h.sessionId
    let b4 ← TlsItem.write h.cipherSuites
    let b5 ← TlsItem.write h.compressionMethods
    let b6 ← TlsItem.write h.extensions
    return b1 ++ (b2 ++ (b3 ++ (b4 ++ (b5 ++ b6)))) : Res Bytes) = _
  rw [h3, h4, h5, h6, writes_version]
  rfl

theorem writes_server_hello {h : ServerHello} (hs : h.cipherSuite ≠ .UnknownCipherSuite) : Writes h := by
  obtain ⟨b3, h3⟩ := writes_vec (v := h.sessionId) (fun x _ => writes_u8 x)
  obtain ⟨b4, h4⟩ := writes_suite hs
  obtain ⟨b6, h6⟩ := writes_exts h.extensions
  refine ⟨[h.serverVersion.major, h.serverVersion.minor] ++ (h.random.data ++ (b3 ++ (b4 ++ (writeNum 1 (TlsEnum.code h.compressionMethod) ++ b6)))), ?_⟩
  show (do
    let b1 ← TlsItem.write h.serverVersion
    let b2 ← TlsItem.write h.random
    let b3 ← TlsItem.write h.sessionId
    let b4 ← TlsItem.write h.cipherSuite
    let b5 ← TlsItem.write h.compressionMethod
    let b6 ← TlsItem.write h.extensions
    return b1 ++ (b2 ++ (b3 ++ (b4 ++ (b5 ++ b6)))) : Res Bytes) = _
  rw [h3, h4, h6, writes_version]
  rfl

theorem writes_request (r : CertificateRequest) : Writes r := by
  obtain ⟨b1, h1⟩ := writes_vec (v := r.certificateTypes) (fun x _ => writes_enum x)
  obtain ⟨b2, h2⟩ := writes_vec (v := r.supportedSignatureAlgorithms) (fun x _ => writes_sha x)
  obtain ⟨b3, h3⟩ := writes_vec (v := r.certificateAuthorities) (fun x _ => writes_vec (v := x) (fun y _ => writes_u8 y))
  refine ⟨b1 ++ (b2 ++ b3), ?_⟩
  show (do
    let b1 ← TlsItem.write r.certificateTypes
    let b2 ← TlsItem.write r.supportedSignatureAlgorithms
    let b3 ← TlsItem.write r.certificateAuthorities
    return b1 ++ (b2 ++ b3) : Res Bytes) = _
  rw [h1, h2, h3]
  rfl

/-! ### sizes -/

/-- The number of bytes written is `tls_size`. -/
def SizeOk [TlsItem α] (x : α) : Prop := ∀ b, TlsItem.write x = .ok b → b.length = TlsItem.size x

theorem sizeOk_lawful [TlsItem α] [WFItem α] [LawfulItem α] {x : α} (h : wf x) : SizeOk x := fun b hb => LawfulItem.size_write x b h hb

theorem sizeOk_items [TlsItem α] {xs : List α} (h : ∀ x ∈ xs, SizeOk x) {b : Bytes} (hb : TlsVec.writeItems xs = .ok b) :
    b.length = TlsVec.sizes xs := by
  induction xs generalizing b with
  | nil => simp [TlsVec.writeItems] at hb; simp [← hb, TlsVec.sizes]
  | cons x xs ih =>
    simp only [TlsVec.writeItems] at hb
    obtain ⟨b1, h1, h2⟩ := Res.bind_eq_ok.mp hb
    obtain ⟨b2, h3, h4⟩ := Res.bind_eq_ok.mp h2
    simp at h4
    rw [← h4, List.length_append, ih (fun y hy => h y (by simp [hy])) h3, h x (by simp) b1 h1, TlsVec.sizes]

theorem sizeOk_vec {min max : Nat} [TlsItem α] {v : TlsVec α min max} (h : ∀ x ∈ v.items, SizeOk x) : SizeOk v := by
  intro b hb
  simp only [TlsItem.write] at hb
  obtain ⟨b1, h1, h2⟩ := Res.bind_eq_ok.mp hb
  simp at h2
  rw [← h2, List.length_append, writeNum_length, sizeOk_items h h1]
  rfl

theorem sizeOk_ext {e : Extension} (h : BuiltExt e) : SizeOk e := by
  intro b hb
  have aux : ∀ {min max : Nat} {α} [TlsItem α] [WFItem α] [LawfulItem α] [LawfulItem (TlsVec α min max)] (v : TlsVec α min max) (k : Nat) (b : Bytes),
      wf v → (do let b ← TlsItem.write v; return writeNum 2 k ++ writeNum 2 (TlsItem.size v) ++ b : Res Bytes) = .ok b → b.length = 4 + TlsItem.size v := by
    intro min max α _ _ _ _ v k b hw hb
    obtain ⟨b1, h1, h2⟩ := Res.bind_eq_ok.mp hb
    simp at h2
    have := LawfulItem.size_write v b1 hw h1
    rw [← h2]
    simp [writeNum_length, this]; omega
  cases e with
  | elliptic_curves l => exact aux l _ b (wf_of_built (fun _ _ => trivial) h) hb
  | ec_point_formats l => exact aux l _ b (wf_of_built (fun _ _ => trivial) h) hb
  | signature_algorithms l => exact aux l _ b (wf_of_built (fun _ _ => trivial) h) hb
  | Unknown ty d =>
    simp only [TlsItem.write, Res.ok.injEq] at hb
    rw [← hb]
    show _ = 4 + d.length
    simp [writeNum_length]; omega

theorem sizeOk_exts {v : Option ExtensionVec} (h : BuiltExts v) : SizeOk v := by
  cases v with
  | none => intro b hb; simp [TlsItem.write] at hb; simp [← hb, TlsItem.size]
  | some v => exact sizeOk_vec (v := v) (fun e he => sizeOk_ext (h.2 e he))

theorem sizeOk_pair [TlsItem α] [TlsItem β] {x : α} {y : β} (hx : SizeOk x) (hy : SizeOk y) : SizeOk (x, y) := by
  intro b hb
  simp only [TlsItem.write] at hb
  obtain ⟨b1, h1, h2⟩ := Res.bind_eq_ok.mp hb
  obtain ⟨b2, h3, h4⟩ := Res.bind_eq_ok.mp h2
  simp at h4
  rw [← h4, List.length_append, hx b1 h1, hy b2 h3]
  rfl

theorem sizeOk_iso [TlsItem α] [TlsItem β] (i : Iso α β) {x : α} (h : SizeOk (i.to x)) : SizeOk x := by
  intro b hb
  rw [i.write] at hb
  rw [i.size]
  exact h b hb

theorem sizeOk_handshake {h : Handshake} (hb : BuiltHandshake h) : SizeOk h := by
  have aux : ∀ {α} [TlsItem α] {x : α} (k : Nat) (b : Bytes), SizeOk x → Handshake.writeBody k x = .ok b → b.length = 4 + TlsItem.size x := by
    intro α _ x k b hx hw
    obtain ⟨c, h1, h2⟩ := Handshake.writeBody_inv hw
    have := hx c h1
    rw [h2]
    simp [writeNum_length, this]; omega
  intro b hw
  cases h with
  | hello_request x => exact aux (x := x) 0 b (sizeOk_lawful trivial) hw
  | client_hello x =>
    obtain ⟨h1, h2, h3, h4, h5⟩ := hb
    exact aux (x := x) 1 b (sizeOk_iso ClientHello.iso (sizeOk_pair (sizeOk_lawful trivial) (sizeOk_pair (sizeOk_lawful (wf_array h1))
      (sizeOk_pair (sizeOk_lawful (wf_of_built (fun _ _ => trivial) h2)) (sizeOk_pair (sizeOk_lawful (wf_of_built (fun _ _ => trivial) h3))
      (sizeOk_pair (sizeOk_lawful (wf_of_built (fun _ _ => trivial) h4)) (sizeOk_exts h5))))))) hw
  | server_hello x =>
    obtain ⟨h1, h2, h5⟩ := hb
    exact aux (x := x) 2 b (sizeOk_iso ServerHello.iso (sizeOk_pair (sizeOk_lawful trivial) (sizeOk_pair (sizeOk_lawful (wf_array h1))
      (sizeOk_pair (sizeOk_lawful (wf_of_built (fun _ _ => trivial) h2)) (sizeOk_pair (sizeOk_lawful trivial)
      (sizeOk_pair (sizeOk_lawful trivial) (sizeOk_exts h5))))))) hw
  | certificate x => exact aux (x := x) 11 b (sizeOk_lawful (wf_of_built (fun _ h => wf_of_built (fun _ _ => trivial) h) hb)) hw
  | server_key_exchange x => exact aux (x := x) 12 b (fun b hb => LawfulTail.size_write x b trivial hb) hw
  | certificate_request x => exact aux (x := x) 13 b (sizeOk_lawful (wf_handshake (h := .certificate_request x) hb (by simp [extensionsOf]))) hw
  | server_hello_done x => exact aux (x := x) 14 b (sizeOk_lawful trivial) hw
  | client_key_exchange x => exact aux (x := x) 16 b (fun b hb => LawfulTail.size_write x b trivial hb) hw
  | finished x => exact aux (x := x) 20 b (sizeOk_lawful (wf_array hb)) hw

end Codec

open Codec

/-! ### C01 -/

/-- C01 (partial: `Unknown` must not carry type 10, 11 or 13, see `C01_shadowed_unknown`): what is written is read back, and the reader
uses up exactly the bytes written. -/
theorem C01_roundtrip_partial (h : Handshake) (b : Bytes) (hb : BuiltHandshake h) (hs : ∀ e ∈ extensionsOf h, NotShadowed e)
    (hw : TlsItem.write h = .ok b) : (TlsItem.read (α := Handshake)).run b = (.ok h, []) :=
  Handshake.read_write (wf_handshake hb hs) hw

/-- C01: writing a constructed message only fails for `UnknownCipherSuite`. -/
theorem C01_write_succeeds (h : Handshake) (hs : ∀ s ∈ suitesOf h, s ≠ .UnknownCipherSuite) : ∃ b, TlsItem.write h = .ok b := by
  cases h with
  | hello_request x => exact ⟨_, rfl⟩
  | client_hello x => exact writes_body (writes_client_hello hs) 1
  | server_hello x => exact writes_body (writes_server_hello (hs _ (by simp [suitesOf]))) 2
  | certificate x => exact writes_body (writes_vec (v := x) (fun y _ => writes_vec (v := y) (fun z _ => writes_u8 z))) 11
  | server_key_exchange x => exact ⟨_, rfl⟩
  | certificate_request x => exact writes_body (writes_request x) 13
  | server_hello_done x => exact ⟨_, rfl⟩
  | client_key_exchange x => exact ⟨_, rfl⟩
  | finished x => exact ⟨_, rfl⟩

/-- A ClientHello with every kind of extension, as `Handshake::new_client_hello` builds it. -/
def sampleHello : Handshake := .client_hello
  { clientVersion := ⟨3, 3⟩, random := ⟨List.replicate 32 7⟩, sessionId := ⟨[]⟩,
    cipherSuites := ⟨[.TLS_ECDHE_RSA_WITH_CHACHA20_POLY1305_SHA256]⟩, compressionMethods := ⟨[.null]⟩,
    extensions := some ⟨[.elliptic_curves ⟨[.secp256r1]⟩, .ec_point_formats ⟨[.uncompressed]⟩,
      .signature_algorithms ⟨[⟨.sha256, .rsa⟩]⟩, .Unknown 0 [1, 2, 3]]⟩ }

example : BuiltHandshake sampleHello ∧ (∀ e ∈ extensionsOf sampleHello, NotShadowed e) ∧ (∀ s ∈ suitesOf sampleHello, s ≠ .UnknownCipherSuite) := by
  refine ⟨⟨⟨List.replicate 32 7, by decide⟩, built_of_bounds (fun _ _ => trivial) (by decide) (by decide), built_of_bounds (fun _ _ => trivial) (by decide) (by decide),
    built_of_bounds (fun _ _ => trivial) (by decide) (by decide), built_of_bounds ?_ (by decide) (by decide)⟩, ?_, ?_⟩
  · intro e he
    simp at he
    rcases he with rfl | rfl | rfl | rfl
    · exact built_of_bounds (fun _ _ => trivial) (by decide) (by decide)
    · exact built_of_bounds (fun _ _ => trivial) (by decide) (by decide)
    · exact built_of_bounds (fun _ _ => trivial) (by decide) (by decide)
    · trivial
  · intro e he
    simp [sampleHello, extensionsOf] at he
    rcases he with rfl | rfl | rfl | rfl <;> simp [NotShadowed]
  · simp [sampleHello, suitesOf]

/-- The hello of `C01_shadowed_unknown`. -/
def shadowHello : ClientHello :=
  { clientVersion := ⟨3, 3⟩, random := ⟨List.replicate 32 7⟩, sessionId := ⟨[]⟩,
    cipherSuites := ⟨[.TLS_ECDHE_RSA_WITH_CHACHA20_POLY1305_SHA256]⟩, compressionMethods := ⟨[.null]⟩,
    extensions := some ⟨[.Unknown 10 [0, 2, 0, 23]]⟩ }

/-- C01 fails in general: `Extension::Unknown(10, ..)` can be constructed and written but reads back as a different message. -/
theorem C01_shadowed_unknown : BuiltHandshake (.client_hello shadowHello) ∧
    ∃ b, TlsItem.write (Handshake.client_hello shadowHello) = .ok b ∧
      (TlsItem.read (α := Handshake)).run b =
        (.ok (.client_hello { shadowHello with extensions := some ⟨[.elliptic_curves ⟨[.secp256r1]⟩]⟩ }), []) := by
  refine ⟨⟨⟨List.replicate 32 7, by decide⟩, built_of_bounds (fun _ _ => trivial) (by decide) (by decide), built_of_bounds (fun _ _ => trivial) (by decide) (by decide),
    built_of_bounds (fun _ _ => trivial) (by decide) (by decide), built_of_bounds ?_ (by decide) (by decide)⟩, _, rfl, by decide +kernel⟩
  intro e he
  simp at he
  subst he
  trivial

/-! ### C02 -/

/-- C02: the size announced for a handshake message is the number of bytes written. -/
theorem C02_size_handshake (h : Handshake) (b : Bytes) (hb : BuiltHandshake h) (hw : TlsItem.write h = .ok b) :
    b.length = TlsItem.size h := sizeOk_handshake hb b hw

/-- C02: extensions. -/
theorem C02_size_extension (e : Extension) (b : Bytes) (hb : BuiltExt e) (hw : TlsItem.write e = .ok b) : b.length = TlsItem.size e :=
  sizeOk_ext hb b hw

/-- C02: vectors of any item type for which the claim holds. -/
theorem C02_size_vec {min max : Nat} [TlsItem α] (v : TlsVec α min max) (b : Bytes)
    (hi : ∀ x ∈ v.items, ∀ b, TlsItem.write x = .ok b → b.length = TlsItem.size x) (hw : TlsItem.write v = .ok b) :
    b.length = TlsItem.size v := sizeOk_vec hi b hw

/-- C02: alerts, cipher suites, signatures, arrays, enums. -/
theorem C02_size_alert (a : Alert) (b : Bytes) (hw : TlsItem.write a = .ok b) : b.length = TlsItem.size a :=
  LawfulItem.size_write a b trivial hw
theorem C02_size_suite (s : CipherSuite) (b : Bytes) (hw : TlsItem.write s = .ok b) : b.length = TlsItem.size s :=
  LawfulItem.size_write s b trivial hw
theorem C02_size_enum [TlsEnum α] (a : α) (b : Bytes) (hw : TlsItem.write a = .ok b) : b.length = TlsItem.size a := by
  simp only [TlsItem.write, Res.ok.injEq] at hw
  simp [← hw, writeNum_length, TlsItem.size]
theorem C02_size_array (a : TlsArray n) (b : Bytes) (hb : BuiltArray a) (hw : TlsItem.write a = .ok b) : b.length = TlsItem.size a :=
  LawfulItem.size_write a b (wf_array hb) hw
theorem C02_size_digitally_signed (d : DigitallySigned) (b : Bytes) (hb : BuiltVec Any d.signature) (hw : TlsItem.write d = .ok b) :
    b.length = TlsItem.size d := LawfulItem.size_write d b (wf_of_built (fun _ _ => trivial) hb) hw

/-! ### C03 -/

/-- C03, what the code guarantees: re-serialising a decoded message gives the received type and body, except that bytes after the extension
block of a hello (`junk`) are gone, and the length field is that of the body written. -/
theorem C03_reserialise (bs : Bytes) (h : Handshake) (rest : Bytes) (hr : (TlsItem.read (α := Handshake)).run bs = (.ok h, rest)) :
    ∃ len body junk, len < 2 ^ 24 ∧ bs = (typeOf h :: beBytes 3 len) ++ body ++ junk ∧ (¬ HasExtensionBlock h → junk = []) ∧
      ∀ b, TlsItem.write h = .ok b → b = (typeOf h :: beBytes 3 body.length) ++ body := by
  obtain ⟨rfl, n, body0, e1, e2, _, w, body, junk, f1, f2, f3, f4⟩ := Handshake.read_inv hr
  have ht : writeNum 1 (typeOf h).toNat = [typeOf h] := writeNum_one _
  refine ⟨n, body, junk, e2, ?_, f4, ?_⟩
  · rw [e1, f1, ht]; simp [writeNum]
  · intro b hb
    rw [f3 b hb, ht]; simp [writeNum]

/-- C03 (partial): a message with a correct length header and no bytes after the extension block (in particular every message that is not
a hello with extensions) is re-serialised to exactly the received bytes. -/
theorem C03_canonical_partial (ty : UInt8) (body : Bytes) (h : Handshake) (rest b : Bytes)
    (hr : (TlsItem.read (α := Handshake)).run ((ty :: beBytes 3 body.length) ++ body) = (.ok h, rest))
    (hx : ¬ HasExtensionBlock h ∨ TlsItem.size h = body.length + 4) (hw : TlsItem.write h = .ok b) :
    b = (ty :: beBytes 3 body.length) ++ body := by
  obtain ⟨rfl, n, body0, e1, e2, _, w, body', junk, f1, f2, f3, f4⟩ := Handshake.read_inv hr
  have ht : writeNum 1 (typeOf h).toNat = [typeOf h] := writeNum_one _
  rw [ht] at e1
  simp only [List.cons_append, List.nil_append, List.cons.injEq] at e1
  obtain ⟨rfl, e1⟩ := e1
  have e3 := List.append_inj e1 (by simp [writeNum])
  have hj : junk = [] := by
    rcases hx with hx | hx
    · exact f4 hx
    · have := congrArg List.length f1
      have h2 := congrArg List.length e3.2
      simp at this
      exact List.length_eq_zero_iff.mp (by omega)
  subst hj
  simp at f1
  rw [f3 b hw, ← f1, ← e3.2, ht]
  simp [writeNum]

/-- The ServerHello of `C03_junk_lost`, with one byte too many after its (empty) extension block. -/
def junkServerHello : Bytes := [2] ++ beBytes 3 41 ++ [3, 3] ++ List.replicate 32 9 ++ [0] ++ [0xcc, 0xa8] ++ [0] ++ [0, 0] ++ [0x55]

/-- What `junkServerHello` decodes to. -/
def junkDecoded : ServerHello :=
  { serverVersion := ⟨3, 3⟩, random := ⟨List.replicate 32 9⟩, sessionId := ⟨[]⟩,
    cipherSuite := .TLS_ECDHE_RSA_WITH_CHACHA20_POLY1305_SHA256, compressionMethod := .null, extensions := some ⟨[]⟩ }

/-- C03 fails in general (and so does the trailing-byte part of C04): a hello with a byte after its extension block is accepted, and
re-serialised to different bytes. The transcript hashed for Finished then differs from the peer's. -/
theorem C03_junk_lost : ∃ h b, (TlsItem.read (α := Handshake)).run junkServerHello = (.ok h, []) ∧ TlsItem.write h = .ok b ∧
    b ≠ junkServerHello ∧ b.length + 1 = junkServerHello.length := by
  refine ⟨.server_hello junkDecoded, _, ?_, rfl, ?_, ?_⟩ <;> decide +kernel

/-! ### C04 -/

/-- C04: reading any byte string returns `Ok` or `Err`. -/
theorem C04_total (bs : Bytes) : ((TlsItem.read (α := Handshake)).run bs).1.Returns := Handshake.read_returns bs

/-- C04 (partial, see `C03_junk_lost` for the exception): nothing is left over after a successful read, and the accepted string is the
header plus exactly the body of the message, unless the message is a hello with an extension block. -/
theorem C04_no_trailing_partial (bs : Bytes) (h : Handshake) (rest : Bytes) (hr : (TlsItem.read (α := Handshake)).run bs = (.ok h, rest)) :
    rest = [] ∧ TlsItem.size h ≤ bs.length ∧ (¬ HasExtensionBlock h → TlsItem.size h = bs.length) := by
  obtain ⟨rfl, n, body0, e1, e2, _, w, body, junk, f1, f2, f3, f4⟩ := Handshake.read_inv hr
  have h1 := congrArg List.length e1
  have h2 := congrArg List.length f1
  simp only [List.length_append, writeNum_length, List.length_nil] at h1 h2
  refine ⟨rfl, by omega, fun hx => ?_⟩
  rw [f4 hx] at h2
  simp at h2
  omega

/-- Messages whose body does not extend to the end of the message. -/
def Closed : Handshake → Prop
  | .hello_request _ | .certificate _ | .certificate_request _ | .server_hello_done _ | .finished _ => True
  | _ => False

/-- C04: bytes after a complete message of a closed kind are reported. -/
theorem C04_trailing_rejected (h : Handshake) (b junk : Bytes) (hb : BuiltHandshake h) (hw : TlsItem.write h = .ok b) (hj : junk ≠ [])
    (hc : Closed h) : ((TlsItem.read (α := Handshake)).run (b ++ junk)).1 = .err .InternalError := by
  have aux : ∀ {α} [TlsItem α] [WFItem α] [LawfulItem α] (mk : α → Handshake) (x : α) (c : Bytes), wf x → TlsItem.write x = .ok c →
      (Handshake.readBody α mk).run (c ++ junk) = (.ok (mk x), junk) := by
    intro α _ _ _ mk x c h1 h2
    unfold Handshake.readBody
    rw [St.bind_of_ok (LawfulItem.read_write x c junk h1 h2), St.pure_run]
  have fin : ∀ n body, (Handshake.readArm (typeOf h).toNat).run body = (.ok h, junk) →
      ((TlsItem.read (α := Handshake)).run (writeNum 1 (typeOf h).toNat ++ (writeNum 3 n ++ body))).1 = .err .InternalError := by
    intro n body hr
    simp only [TlsItem.read]
    rw [St.bind_of_ok (readNum_append 1 _ _ (by have := (typeOf h).toNat_lt; omega))]
    have h3 : (readNum 3).run (writeNum 3 n ++ body) = (.ok (beNat (writeNum 3 n)), body) := by
      unfold readNum
      rw [St.bind_of_ok (readExact_append (writeNum 3 n) body 3 (writeNum_length 3 n)), St.pure_run]
    rw [St.bind_of_ok h3, St.bind_of_ok hr, Handshake.checkEnd_run, if_neg hj]
  cases h with
  | hello_request x =>
    obtain ⟨c, h1, rfl⟩ := Handshake.writeBody_inv hw
    simpa [typeOf] using fin _ _ (aux _ x c trivial h1)
  | certificate x =>
    obtain ⟨c, h1, rfl⟩ := Handshake.writeBody_inv hw
    simpa [typeOf] using fin _ _ (aux _ x c (wf_handshake (h := .certificate x) hb (by simp [extensionsOf])) h1)
  | certificate_request x =>
    obtain ⟨c, h1, rfl⟩ := Handshake.writeBody_inv hw
    simpa [typeOf] using fin _ _ (aux _ x c (wf_handshake (h := .certificate_request x) hb (by simp [extensionsOf])) h1)
  | server_hello_done x =>
    obtain ⟨c, h1, rfl⟩ := Handshake.writeBody_inv hw
    simpa [typeOf] using fin _ _ (aux _ x c trivial h1)
  | finished x =>
    obtain ⟨c, h1, rfl⟩ := Handshake.writeBody_inv hw
    simpa [typeOf] using fin _ _ (aux _ x c (wf_handshake (h := .finished x) hb (by simp [extensionsOf])) h1)
  | client_hello x => exact hc.elim
  | server_hello x => exact hc.elim
  | server_key_exchange x => exact hc.elim
  | client_key_exchange x => exact hc.elim

/-! ### C05 -/

/-- C05: a vector constructor succeeds exactly when the serialised size is within bounds. -/
theorem C05_new_iff {min max : Nat} [TlsItem α] (items : List α) :
    ((∃ v : TlsVec α min max, TlsVec.new min max items = .ok v) ↔ min ≤ (items.map TlsItem.size).sum ∧ (items.map TlsItem.size).sum ≤ max) ∧
    (∀ v : TlsVec α min max, TlsVec.new min max items = .ok v → v.items = items) ∧
    (¬ (min ≤ (items.map TlsItem.size).sum ∧ (items.map TlsItem.size).sum ≤ max) → TlsVec.new min max items = .err .DecodeError) := by
  have hs : TlsVec.sizes items = (items.map TlsItem.size).sum := by
    induction items with
    | nil => rfl
    | cons x xs ih => simp [TlsVec.sizes, ih]
  refine ⟨⟨?_, ?_⟩, ?_, ?_⟩
  · rintro ⟨v, hv⟩
    have := TlsVec.new_ok_iff.mp hv
    omega
  · intro h
    exact ⟨⟨items⟩, TlsVec.new_ok_iff.mpr ⟨rfl, by omega, by omega⟩⟩
  · intro v hv
    rw [(TlsVec.new_ok_iff.mp hv).1]
  · intro h
    unfold TlsVec.new
    simp only
    rw [← hs] at h
    split
    · rfl
    · split
      · rfl
      · omega

/-- C05: decoded vectors are within bounds. -/
theorem C05_decoded_bounds {min max : Nat} [TlsItem α] (bs rest : Bytes) (v : TlsVec α min max)
    (h : (TlsItem.read (α := TlsVec α min max)).run bs = (.ok v, rest)) :
    min ≤ (v.items.map TlsItem.size).sum ∧ (v.items.map TlsItem.size).sum ≤ max := by
  simp only [TlsItem.read] at h
  obtain ⟨n, s1, h1, h2⟩ := St.bind_eq_ok h
  obtain ⟨ys, s2, h5, h6⟩ := St.bind_eq_ok h2
  rw [St.lift_run] at h6
  simp at h6
  have h7 := C05_new_iff (min := min) (max := max) ys
  have h8 := h7.1.mp ⟨v, h6.1⟩
  rw [h7.2.1 v h6.1]
  exact h8

/-- C05: every vector inside a decoded handshake message is one its constructor would have accepted. -/
theorem C05_decoded_handshake (bs rest : Bytes) (h : Handshake) (hr : (TlsItem.read (α := Handshake)).run bs = (.ok h, rest)) :
    BuiltHandshake h ∧ ∀ e ∈ extensionsOf h, NotShadowed e :=
  let ⟨_, _, _, _, _, ha⟩ := Handshake.read_inv hr
  built_handshake ha.2.1

example : ∃ v : SessionId, TlsVec.new 0 32 (List.replicate 32 (1 : UInt8)) = .ok v := ⟨⟨List.replicate 32 1⟩, by decide⟩
example : TlsVec.new 0 32 (List.replicate 33 (1 : UInt8)) = .err .DecodeError := by decide

/-! ### C06 -/

/-- C06: the length prefix of a constructed vector is the true length of what follows it, in as many bytes as the largest length needs
(RFC 5246 section 4.3). -/
theorem C06_vec_prefix {min max : Nat} [TlsItem α] (v : TlsVec α min max) (b : Bytes) (hmax : max < 2 ^ 64) (hb : BuiltVec Any v)
    (hi : ∀ x ∈ v.items, ∀ b, TlsItem.write x = .ok b → b.length = TlsItem.size x) (hw : TlsItem.write v = .ok b) :
    ∃ k body, b = beBytes k body.length ++ body ∧ body.length < 256 ^ k ∧ max < 256 ^ k ∧
      (max < 2 ^ 32 → ∀ j, 1 ≤ j → max < 256 ^ j → k ≤ j) := by
  have hbd := bounds_of_built hb
  simp only [TlsItem.write] at hw
  obtain ⟨b1, h1, h2⟩ := Res.bind_eq_ok.mp hw
  simp at h2
  have hl := sizeOk_items hi h1
  refine ⟨TlsVec.prefixLen max, b1, by rw [← h2, hl]; rfl, ?_, TlsVec.prefixLen_fits max hmax, ?_⟩
  · rw [hl]
    exact Nat.lt_of_le_of_lt hbd.2 (TlsVec.prefixLen_fits max hmax)
  · intro hm j hj1 hj
    have key : ∀ i, j < i → max < 256 ^ (i - 1) := fun i hi =>
      Nat.lt_of_lt_of_le hj (Nat.pow_le_pow_right (by decide) (by omega))
    unfold TlsVec.prefixLen
    split
    · exact hj1
    · split
      · exact Nat.le_of_not_lt fun h => by have := key 2 h; omega
      · split
        · exact Nat.le_of_not_lt fun h => by have := key 3 h; omega
        · exact Nat.le_of_not_lt fun h => by have := key 4 h; omega

/-- C06 (partial): the extension length is right for extensions inside an extension block (whose constructor bounds the total). -/
theorem C06_extension_length_partial (v : ExtensionVec) (e : Extension) (b : Bytes) (hv : BuiltVec BuiltExt v) (he : e ∈ v.items)
    (hw : TlsItem.write e = .ok b) : ∃ ty body, b = beBytes 2 ty ++ beBytes 2 body.length ++ body ∧ body.length < 2 ^ 16 := by
  have hsz : e.bodySize + 4 ≤ 65535 := by
    have h1 := size_le_sizes he
    have h2 : TlsItem.size e = 4 + e.bodySize := rfl
    have h3 := (bounds_of_built hv).2
    omega
  have hbe := hv.2 e he
  have aux : ∀ {min max : Nat} {α} [TlsItem α] [WFItem α] [LawfulItem (TlsVec α min max)] (v : TlsVec α min max) (k : Nat) (b : Bytes),
      wf v → TlsItem.size v ≤ 65535 → (do let b ← TlsItem.write v; return writeNum 2 k ++ writeNum 2 (TlsItem.size v) ++ b : Res Bytes) = .ok b →
        ∃ ty body, b = beBytes 2 ty ++ beBytes 2 body.length ++ body ∧ body.length < 2 ^ 16 := by
    intro min max α _ _ _ v k b hw hs hb
    obtain ⟨b1, h1, h2⟩ := Res.bind_eq_ok.mp hb
    simp only [Res.pure_def, Res.ok.injEq] at h2
    have := LawfulItem.size_write v b1 hw h1
    exact ⟨k, b1, by rw [← h2, this]; rfl, by omega⟩
  cases e with
  | elliptic_curves l => exact aux l _ b (wf_of_built (fun _ _ => trivial) hbe) (by change TlsItem.size l + 4 ≤ _ at hsz; omega) hw
  | ec_point_formats l => exact aux l _ b (wf_of_built (fun _ _ => trivial) hbe) (by change TlsItem.size l + 4 ≤ _ at hsz; omega) hw
  | signature_algorithms l => exact aux l _ b (wf_of_built (fun _ _ => trivial) hbe) (by change TlsItem.size l + 4 ≤ _ at hsz; omega) hw
  | Unknown ty d =>
    simp only [TlsItem.write, Res.ok.injEq] at hw
    change d.length + 4 ≤ _ at hsz
    exact ⟨ty.toNat, d, hw.symm, by omega⟩

/-- C06 (partial): the handshake length is right for bodies shorter than 2^24 bytes. -/
theorem C06_handshake_length_partial (h : Handshake) (b : Bytes) (hb : BuiltHandshake h) (hs : TlsItem.size h < 2 ^ 24 + 4)
    (hw : TlsItem.write h = .ok b) : ∃ body, b = typeOf h :: (beBytes 3 body.length ++ body) ∧ body.length < 2 ^ 24 := by
  have hsz := sizeOk_handshake hb b hw
  have aux : ∀ {α} [TlsItem α] (x : α) (ty : UInt8), Handshake.writeBody ty.toNat x = .ok b → TlsItem.size h = 4 + TlsItem.size x →
      ∃ body, b = ty :: (beBytes 3 body.length ++ body) ∧ body.length < 2 ^ 24 := by
    intro α _ x ty h1 h2
    obtain ⟨c, h3, h4⟩ := Handshake.writeBody_inv h1
    have hl : c.length = TlsItem.size x := by
      have := congrArg List.length h4
      simp only [List.length_append, writeNum_length] at this
      omega
    exact ⟨c, by rw [h4, hl, writeNum_one]; rfl, by omega⟩
  cases h with
  | hello_request x => exact aux x 0 hw rfl
  | client_hello x => exact aux x 1 hw rfl
  | server_hello x => exact aux x 2 hw rfl
  | certificate x => exact aux x 11 hw rfl
  | server_key_exchange x => exact aux x 12 hw rfl
  | certificate_request x => exact aux x 13 hw rfl
  | server_hello_done x => exact aux x 14 hw rfl
  | client_key_exchange x => exact aux x 16 hw rfl
  | finished x => exact aux x 20 hw rfl

theorem Codec.sizes_replicate [TlsItem α] (n : Nat) (x : α) : TlsVec.sizes (List.replicate n x) = n * TlsItem.size x := by
  induction n with
  | zero => simp [TlsVec.sizes]
  | succ n ih => rw [List.replicate_succ, TlsVec.sizes, ih, Nat.succ_mul, Nat.add_comm]

/-- C06 fails for the extension constructor on its own: `new_elliptic_curve_list` accepts 32767 curves, and the extension length written
is 0 although 65536 bytes follow. -/
theorem C06_extension_truncates : ∃ e b body, Extension.newEllipticCurveList (List.replicate 32767 .secp256r1) = .ok e ∧
    TlsItem.write e = .ok b ∧ b = [0, 10] ++ [0, 0] ++ body ∧ body.length = 65536 := by
  have hs : TlsVec.sizes (List.replicate 32767 NamedCurve.secp256r1) = 65534 := by
    rw [Codec.sizes_replicate]; rfl
  have hnew : TlsVec.new 1 65535 (List.replicate 32767 NamedCurve.secp256r1) = .ok ⟨List.replicate 32767 .secp256r1⟩ :=
    TlsVec.new_ok_iff.mpr ⟨rfl, by rw [hs]; decide, by rw [hs]; decide⟩
  obtain ⟨body, hb⟩ := writes_vec (v := (⟨List.replicate 32767 .secp256r1⟩ : EllipticCurveList)) (fun x _ => writes_enum x)
  have hl := LawfulItem.size_write _ body (wf_of_built (fun _ _ => trivial) (B := Any) ⟨⟨_, hnew⟩, fun _ _ => trivial⟩) hb
  have hsz : TlsItem.size (⟨List.replicate 32767 .secp256r1⟩ : EllipticCurveList) = 65536 := by
    show TlsVec.prefixLen 65535 + TlsVec.sizes _ = _
    rw [hs]; rfl
  refine ⟨.elliptic_curves ⟨List.replicate 32767 .secp256r1⟩, [0, 10] ++ [0, 0] ++ body, body, ?_, ?_, rfl, by rw [hl, hsz]⟩
  · unfold Extension.newEllipticCurveList
    rw [hnew]
    rfl
  · show (do let b ← TlsItem.write (⟨List.replicate 32767 .secp256r1⟩ : EllipticCurveList)
             return writeNum 2 10 ++ writeNum 2 (TlsItem.size (⟨List.replicate 32767 .secp256r1⟩ : EllipticCurveList)) ++ b : Res Bytes) = _
    rw [hb, hsz, Res.bind_ok, show writeNum 2 10 = [0, 10] from by decide, show writeNum 2 65536 = [0, 0] from by decide]
    rfl

/-- C06 fails for `new_client_key_exchange`: 2^24 bytes are accepted and written with a length of 0. -/
theorem C06_handshake_truncates (data : Bytes) (hd : data.length = 2 ^ 24) : ∃ h, Handshake.newClientKeyExchange data = .ok h ∧
    TlsItem.write h = .ok ([16] ++ [0, 0, 0] ++ data) := by
  refine ⟨_, rfl, ?_⟩
  show Res.ok (writeNum 1 16 ++ writeNum 3 data.length ++ data) = _
  rw [hd, show writeNum 1 16 = [16] from by decide, show writeNum 3 (2 ^ 24) = [0, 0, 0] from by decide]

example : ∃ data : Bytes, data.length = 2 ^ 24 := ⟨List.replicate (2 ^ 24) 0, List.length_replicate ..⟩

/-! ### C07 -/

/-- C07, for any enum: a number of the right width decodes to `a` iff it is the number of `a`; a number of no variant is a `DecodeError`.
Nothing else is consumed. -/
theorem C07_enum [TlsEnum α] [LawfulEnum α] (n : Nat) (rest : Bytes) (hn : n < 256 ^ TlsEnum.width α) :
    (∀ a : α, (TlsItem.read (α := α)).run (beBytes (TlsEnum.width α) n ++ rest) = (.ok a, rest) ↔ TlsEnum.code a = n) ∧
    ((∀ a : α, TlsEnum.code a ≠ n) → (TlsItem.read (α := α)).run (beBytes (TlsEnum.width α) n ++ rest) = (.err .DecodeError, rest)) ∧
    (∀ a : α, TlsEnum.code a = n → TlsItem.write a = .ok (beBytes (TlsEnum.width α) n)) := by
  have hrun : (TlsItem.read (α := α)).run (beBytes (TlsEnum.width α) n ++ rest) =
      match TlsEnum.ofCode (α := α) n with
      | some a => (.ok a, rest)
      | none => (.err .DecodeError, rest) := by
    simp only [TlsItem.read]
    rw [show beBytes (TlsEnum.width α) n = writeNum (TlsEnum.width α) n from rfl, St.bind_of_ok (readNum_append _ n rest hn)]
    cases TlsEnum.ofCode (α := α) n <;> rfl
  rw [hrun]
  refine ⟨fun a => ⟨fun h => ?_, fun h => ?_⟩, fun h => ?_, fun a h => ?_⟩
  · cases e : TlsEnum.ofCode (α := α) n with
    | none => rw [e] at h; simp at h
    | some b => rw [e] at h; simp at h; rw [← h]; exact TlsEnum.ofCode_some e
  · have := LawfulEnum.complete a
    rw [h] at this
    rw [this]
  · cases e : TlsEnum.ofCode (α := α) n with
    | none => rfl
    | some b => exact absurd (TlsEnum.ofCode_some e) (h b)
  · rw [← h]; rfl

/-- The numbers an enum type accepts. -/
def Accepts (α : Type) [TlsEnum α] (n : Nat) : Prop := ∃ a : α, TlsEnum.code a = n

private theorem accepts_iff [TlsEnum α] [LawfulEnum α] (n : Nat) : Accepts α n ↔ n ∈ (TlsEnum.all (α := α)).map TlsEnum.code := by
  constructor
  · rintro ⟨a, rfl⟩
    have := LawfulEnum.complete a
    exact List.mem_map.mpr ⟨a, List.mem_of_find?_eq_some this, rfl⟩
  · intro h
    obtain ⟨a, _, ha⟩ := List.mem_map.mp h
    exact ⟨a, ha⟩

/-- C07: the accepted numbers, as listed in RFC 5246 section 7.2 and RFC 6066 section 9 (alerts), RFC 5246 section 7.4.1.4.1 (hash, signature),
RFC 3749 (compression), RFC 4492 section 5.1 (curves, point formats) and RFC 5246 section 7.4.4 (certificate types). -/
theorem C07_alert_level (n : Nat) : Accepts AlertLevel n ↔ n ∈ [1, 2] := accepts_iff n
theorem C07_alert_description (n : Nat) : Accepts AlertDescription n ↔
    n ∈ [0, 10, 20, 21, 22, 30, 40, 41, 42, 43, 44, 45, 46, 47, 48, 49, 50, 51, 60, 70, 71, 80, 90, 100, 110, 111, 112, 113, 114] := accepts_iff n
theorem C07_hash (n : Nat) : Accepts HashAlgorithm n ↔ n < 7 := by
  rw [accepts_iff, show (TlsEnum.all (α := HashAlgorithm)).map TlsEnum.code = List.range 7 from rfl, List.mem_range]
theorem C07_signature (n : Nat) : Accepts SignatureAlgorithm n ↔ n < 4 := by
  rw [accepts_iff, show (TlsEnum.all (α := SignatureAlgorithm)).map TlsEnum.code = List.range 4 from rfl, List.mem_range]
theorem C07_compression (n : Nat) : Accepts CompressionMethod n ↔ n < 2 := by
  rw [accepts_iff, show (TlsEnum.all (α := CompressionMethod)).map TlsEnum.code = List.range 2 from rfl, List.mem_range]
theorem C07_point_format (n : Nat) : Accepts ECPointFormat n ↔ n < 3 := by
  rw [accepts_iff, show (TlsEnum.all (α := ECPointFormat)).map TlsEnum.code = List.range 3 from rfl, List.mem_range]
theorem C07_certificate_type (n : Nat) : Accepts ClientCertificateType n ↔ n ∈ [1, 2, 3, 4, 5, 6, 20] := accepts_iff n
theorem C07_named_curve (n : Nat) : Accepts NamedCurve n ↔ (1 ≤ n ∧ n ≤ 25) ∨ n = 0xff01 ∨ n = 0xff02 := by
  rw [accepts_iff, show (TlsEnum.all (α := NamedCurve)).map TlsEnum.code = (List.range 25).map (· + 1) ++ [0xff01, 0xff02] from rfl]
  simp only [List.mem_append, List.mem_map, List.mem_range, List.mem_cons, List.not_mem_nil, or_false]
  constructor
  · rintro (⟨a, h, rfl⟩ | h)
    · left; omega
    · exact .inr h
  · rintro (h | h)
    · exact .inl ⟨n - 1, by omega, by omega⟩
    · exact .inr h

example : (TlsItem.read (α := NamedCurve)).run [0, 23, 9] = (.ok .secp256r1, [9]) := by decide
example : (TlsItem.read (α := NamedCurve)).run [0, 29, 9] = (.err .DecodeError, [9]) := by decide

/-! ### C08 (the rejection by the handshake is in `Props/Handshake`) -/

/-- C08: two bytes decode to the known suite iff they are 0xcc, 0xa8, and to `UnknownCipherSuite` otherwise. -/
theorem C08_suite_decode (a b : UInt8) (rest : Bytes) : (TlsItem.read (α := CipherSuite)).run (a :: b :: rest) =
    (.ok (if a = 0xcc ∧ b = 0xa8 then .TLS_ECDHE_RSA_WITH_CHACHA20_POLY1305_SHA256 else .UnknownCipherSuite), rest) := by
  have h1 : (readNum 1).run (a :: b :: rest) = (.ok a.toNat, b :: rest) := by
    have := readNum_append 1 a.toNat (b :: rest) (by have := a.toNat_lt; omega)
    rwa [writeNum_one] at this
  have h2 : (readNum 1).run (b :: rest) = (.ok b.toNat, rest) := by
    have := readNum_append 1 b.toNat rest (by have := b.toNat_lt; omega)
    rwa [writeNum_one] at this
  simp only [TlsItem.read]
  rw [St.bind_of_ok h1, St.bind_of_ok h2]
  by_cases h : a = 0xcc ∧ b = 0xa8
  · rw [if_pos h, if_pos ⟨by rw [h.1]; rfl, by rw [h.2]; rfl⟩]
    rfl
  · rw [if_neg h, if_neg (fun hh => h ⟨UInt8.toNat_inj.mp hh.1, UInt8.toNat_inj.mp hh.2⟩)]
    rfl

/-- C08: `UnknownCipherSuite` cannot be written, neither alone nor inside a ServerHello or ClientHello. -/
theorem C08_unknown_not_written (h : Handshake) (hu : .UnknownCipherSuite ∈ suitesOf h) : ∃ k, TlsItem.write h = .err k := by
  have hsuite : TlsItem.write CipherSuite.UnknownCipherSuite = .err .UnexpectedMessage := rfl
  have hret : ∀ {α} [TlsItem α] {x : α} (n : Nat), (∃ k, TlsItem.write x = .err k) → ∃ k, Handshake.writeBody n x = .err k := by
    rintro α _ x n ⟨k, hk⟩
    exact ⟨k, by unfold Handshake.writeBody; rw [hk]; rfl⟩
  have items : ∀ xs : List CipherSuite, .UnknownCipherSuite ∈ xs → ∃ k, TlsVec.writeItems xs = .err k := by
    intro xs
    induction xs with
    | nil => simp
    | cons x xs ih =>
      intro hm
      cases x with
      | UnknownCipherSuite => exact ⟨_, rfl⟩
      | TLS_ECDHE_RSA_WITH_CHACHA20_POLY1305_SHA256 =>
        obtain ⟨k, hk⟩ := ih (by simpa using hm)
        exact ⟨k, by rw [TlsVec.writeItems, hk]; rfl⟩
  cases h with
  | client_hello x =>
    obtain ⟨b3, h3⟩ := writes_vec (v := x.sessionId) (fun x _ => writes_u8 x)
    obtain ⟨k, hk⟩ := items x.cipherSuites.items hu
    refine hret 1 ⟨k, ?_⟩
    show (do
      let b1 ← TlsItem.write x.clientVersion
      let b2 ← TlsItem.write x.random
      let b3 ← TlsItem.write x.sessionId
      let b4 ← (do
        let body ← TlsVec.writeItems x.cipherSuites.items
        return writeNum (TlsVec.prefixLen 65534) (TlsVec.sizes x.cipherSuites.items) ++ body)
      let b5 ← TlsItem.write x.compressionMethods
      let b6 ← TlsItem.write x.extensions
      return b1 ++ (b2 ++ (b3 ++ (b4 ++ (b5 ++ b6)))) : Res Bytes) = _
    rw [writes_version, h3, hk]
    rfl
  | server_hello x =>
    obtain ⟨b3, h3⟩ := writes_vec (v := x.sessionId) (fun x _ => writes_u8 x)
    have hx : x.cipherSuite = .UnknownCipherSuite := by simpa [suitesOf, eq_comm] using hu
    refine hret 2 ⟨.UnexpectedMessage, ?_⟩
    show (do
      let b1 ← TlsItem.write x.serverVersion
      let b2 ← TlsItem.write x.random
      let b3 ← TlsItem.write x.sessionId
      let b4 ← TlsItem.write x.cipherSuite
      let b5 ← TlsItem.write x.compressionMethod
      let b6 ← TlsItem.write x.extensions
      return b1 ++ (b2 ++ (b3 ++ (b4 ++ (b5 ++ b6)))) : Res Bytes) = _
    rw [writes_version, h3, hx, hsuite]
    rfl
  | hello_request x => simp [suitesOf] at hu
  | certificate x => simp [suitesOf] at hu
  | server_key_exchange x => simp [suitesOf] at hu
  | certificate_request x => simp [suitesOf] at hu
  | server_hello_done x => simp [suitesOf] at hu
  | client_key_exchange x => simp [suitesOf] at hu
  | finished x => simp [suitesOf] at hu

end Husk
