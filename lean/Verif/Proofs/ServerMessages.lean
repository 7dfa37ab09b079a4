import Verif.Proofs.HandshakeServer
/-! The messages of the server as bytes and as values. -/

namespace Husk

open Item Spec TlsReader Ecdhe

theorem writeNum_eq (k n : Nat) : writeNum k n = beBytes k n := rfl

theorem beBytes_one (n : Nat) : beBytes 1 n = [UInt8.ofNat n] := by
  rfl

/-- A vector of bytes on the wire. -/
theorem write_byteVec {min max : Nat} (v : TlsVec UInt8 min max) : TlsItem.write v = .ok (beBytes (TlsVec.prefixLen max) v.items.length ++ v.items) := by
  show (TlsVec.writeItems v.items >>= _) = _
  rw [write_bytes, Res.bind_ok, sizes_bytes]
  rfl

theorem wf_byteVec {min max : Nat} (v : TlsVec UInt8 min max) : wf v ↔ min ≤ v.items.length ∧ v.items.length ≤ max := by
  rw [← sizes_bytes]
  exact ⟨fun h => h.2, fun h => ⟨fun _ _ => trivial, h⟩⟩

theorem size_byteVec {min max : Nat} (v : TlsVec UInt8 min max) : TlsItem.size v = TlsVec.prefixLen max + v.items.length := by
  show TlsVec.prefixLen max + TlsVec.sizes v.items = _
  rw [sizes_bytes]

/-- A message whose body is well formed. -/
theorem writeBody_eq {α : Type} [TlsItem α] (num : Nat) (x : α) (b : Bytes) (h : TlsItem.write x = .ok b) (hs : TlsItem.size x = b.length) :
    Handshake.writeBody num x = .ok (handshakeBytes (UInt8.ofNat num) b) := by
  rw [Handshake.writeBody, h, Res.bind_ok, hs, handshakeBytes, writeNum_eq, writeNum_eq, beBytes_one]
  rfl

/-! ### ServerHello -/

/-- The bytes of the extension block of a value. -/
def extBytes (e : Option ExtensionVec) : Bytes :=
  match TlsItem.write e with
  | .ok b => b
  | _ => []

theorem extBytes_eq (e : Option ExtensionVec) : TlsItem.write e = .ok (extBytes e) := by
  obtain ⟨b, h⟩ := write_extensions_ok e
  rw [extBytes, h]

theorem write_serverHello {sh : ServerHello} (hw : wf sh) (h1 : sh.serverVersion = ⟨3, 3⟩) (h2 : sh.cipherSuite = TlsClient.suite) (h3 : sh.compressionMethod = .null) :
    TlsItem.write (Handshake.server_hello sh) = .ok (serverHelloBytes sh.random.data sh.sessionId.items (extBytes sh.extensions)) := by
  obtain ⟨v, r, sid, cs, cm, ext⟩ := sh
  simp only at h1 h2 h3
  subst h1 h2 h3
  have hb : TlsItem.write (⟨⟨3, 3⟩, r, sid, TlsClient.suite, .null, ext⟩ : ServerHello) =
      .ok ([3, 3] ++ r.data ++ (UInt8.ofNat sid.items.length :: sid.items) ++ [0xcc, 0xa8] ++ [0] ++ extBytes ext) := by
    show (do
      let b1 ← TlsItem.write (⟨3, 3⟩ : ProtocolVersion)
      let b2 ← TlsItem.write r
      let b3 ← TlsItem.write sid
      let b4 ← TlsItem.write TlsClient.suite
      let b5 ← TlsItem.write CompressionMethod.null
      let b6 ← TlsItem.write ext
      return b1 ++ (b2 ++ (b3 ++ (b4 ++ (b5 ++ b6))))) = _
    rw [show TlsItem.write (⟨3, 3⟩ : ProtocolVersion) = .ok [3, 3] from rfl, Res.bind_ok, show TlsItem.write r = .ok r.data from rfl, Res.bind_ok, write_byteVec, Res.bind_ok,
      show TlsItem.write TlsClient.suite = .ok [0xcc, 0xa8] from rfl, Res.bind_ok, show TlsItem.write CompressionMethod.null = .ok [0] from rfl, Res.bind_ok, extBytes_eq, Res.bind_ok,
      show TlsVec.prefixLen 32 = 1 from rfl, beBytes_one]
    simp
  exact writeBody_eq 2 _ _ hb (LawfulTail.size_write _ _ hw hb).symm

/-! ### Certificate -/

theorem write_certificates (cs : List Asn1Cert) : TlsVec.writeItems cs = .ok ((cs.map TlsVec.items).flatMap fun c => beBytes 3 c.length ++ c) := by
  induction cs with
  | nil => rfl
  | cons c cs ih =>
    rw [TlsVec.writeItems, write_byteVec, Res.bind_ok, ih, Res.bind_ok]
    simp
    rfl

theorem sizes_certificates (cs : List Asn1Cert) : TlsVec.sizes cs = ((cs.map TlsVec.items).flatMap fun c => beBytes 3 c.length ++ c).length := by
  induction cs with
  | nil => rfl
  | cons c cs ih =>
    rw [TlsVec.sizes, ih, size_byteVec, show TlsVec.prefixLen 16777215 = 3 from rfl]
    simp
    omega

theorem write_certificate (l : CertificateList) : TlsItem.write (Handshake.certificate l) = .ok (certificateBytes (l.items.map TlsVec.items)) := by
  have hb : TlsItem.write l = .ok (beBytes 3 ((l.items.map TlsVec.items).flatMap fun c => beBytes 3 c.length ++ c).length ++
      (l.items.map TlsVec.items).flatMap fun c => beBytes 3 c.length ++ c) := by
    show (TlsVec.writeItems l.items >>= _) = _
    rw [write_certificates, Res.bind_ok, sizes_certificates]
    rfl
  refine writeBody_eq 11 _ _ hb ?_
  show TlsVec.prefixLen _ + TlsVec.sizes l.items = _
  rw [sizes_certificates, List.length_append, beBytes_length]
  rfl

/-! ### ServerKeyExchange -/

theorem write_obscure (d : Bytes) : TlsItem.write (Handshake.server_key_exchange ⟨d⟩) = .ok (handshakeBytes 12 d) := writeBody_eq 12 _ _ rfl rfl

/-- The body of a ServerKeyExchange is read. -/
theorem read_keyExchange (c : NamedCurve) (pub sig : Bytes) (h : pub.length = 65) (hs : sig.length < 2 ^ 16) :
    ∃ ps : EcdheServerKeyExchange, ps.params.pub.items = pub ∧ (TlsItem.read (α := EcdheServerKeyExchange)).run
      ([3] ++ beBytes 2 (TlsEnum.code c) ++ (UInt8.ofNat pub.length :: pub) ++ [4, 1] ++ beBytes 2 sig.length ++ sig) = (.ok ps, []) := by
  refine ⟨{ params := { curve_params := .named_curve c, pub := ⟨pub⟩ }, signed_params := { algorithm := { hash := .sha256, signature := .rsa }, signature := ⟨sig⟩ } }, rfl, ?_⟩
  have key := LawfulItem.read_write (α := EcdheServerKeyExchange)
    { params := { curve_params := .named_curve c, pub := ⟨pub⟩ }, signed_params := { algorithm := { hash := .sha256, signature := .rsa }, signature := ⟨sig⟩ } }
    ([3] ++ beBytes 2 (TlsEnum.code c) ++ (UInt8.ofNat pub.length :: pub) ++ [4, 1] ++ beBytes 2 sig.length ++ sig) []
  rw [List.append_nil] at key
  apply key
  · refine ⟨⟨fun _ _ => trivial, ?_⟩, ⟨fun _ _ => trivial, Nat.zero_le _, ?_⟩⟩
    · show 1 ≤ TlsVec.sizes pub ∧ TlsVec.sizes pub ≤ 255
      rw [sizes_bytes, h]; decide
    · show TlsVec.sizes sig ≤ 65535
      rw [sizes_bytes]; omega
  · simp only [TlsItem.write, Res.bind_ok, write_bytes, sizes_bytes, h]
    show Res.ok _ = Res.ok _
    simp
    rfl

/-! ### Extensions -/

theorem ext_exists (e : Nat × Bytes) (h : ServerExt e) : ∃ x : Extension, wf x ∧ TlsItem.write x = .ok (beBytes 2 e.1 ++ beBytes 2 e.2.length ++ e.2) ∧
    TlsItem.size x = 4 + e.2.length := by
  obtain ⟨ty, data⟩ := e
  obtain ⟨h1, h2, h3 | ⟨h3, fs, h4, h5, h6, h7⟩⟩ := h
  · refine ⟨.Unknown (UInt16.ofNat ty) data, ⟨by show data.length ≤ 65535; exact Nat.le_of_lt_succ h2, ?_⟩, ?_, rfl⟩
    · have : ∀ k : Nat, k < 65536 → ty ≠ k → UInt16.ofNat ty ≠ UInt16.ofNat k := by
        intro k hk hne he
        have := congrArg UInt16.toNat he
        rw [UInt16.toNat_ofNat', UInt16.toNat_ofNat', Nat.mod_eq_of_lt h1, Nat.mod_eq_of_lt hk] at this
        exact hne this
      exact ⟨this 10 (by decide) h3.1, this 11 (by decide) h3.2.1, this 13 (by decide) h3.2.2⟩
    · show Res.ok (writeNum 2 (UInt16.ofNat ty).toNat ++ writeNum 2 data.length ++ data) = _
      rw [UInt16.toNat_ofNat', Nat.mod_eq_of_lt h1]
      rfl
  · simp only at h3 h7
    subst h3 h7
    have hfm : ∃ l : List ECPointFormat, TlsVec.writeItems l = .ok fs ∧ TlsVec.sizes l = fs.length := by
      clear h1 h2 h4 h5
      induction fs with
      | nil => exact ⟨[], rfl, rfl⟩
      | cons x fs ih =>
        obtain ⟨l, hl, hs⟩ := ih (fun y hy => h6 y (List.mem_cons_of_mem _ hy))
        have hx : ∃ f : ECPointFormat, TlsItem.write f = .ok [x] := by
          rcases h6 x (by simp) with rfl | rfl | rfl
          · exact ⟨.uncompressed, rfl⟩
          · exact ⟨.ansiX962_compressed_prime, rfl⟩
          · exact ⟨.ansiX962_compressed_char2, rfl⟩
        obtain ⟨f, hf⟩ := hx
        refine ⟨f :: l, ?_, ?_⟩
        · rw [TlsVec.writeItems, hf, Res.bind_ok, hl, Res.bind_ok]; rfl
        · rw [TlsVec.sizes, hs, List.length_cons, show TlsItem.size f = 1 from rfl]; omega
    obtain ⟨l, hl, hs⟩ := hfm
    have hpos := List.length_pos_iff.mpr h4
    refine ⟨.ec_point_formats ⟨l⟩, ⟨?_, ?_⟩, ?_, ?_⟩
    · show 1 + TlsVec.sizes l ≤ 65535
      rw [hs]; omega
    · exact ⟨fun _ _ => trivial, by show 1 ≤ TlsVec.sizes l; omega, by show TlsVec.sizes l ≤ 255; omega⟩
    · show ((TlsVec.writeItems l >>= _) >>= _) = _
      rw [hl, Res.bind_ok]
      show (pure (writeNum 1 (TlsVec.sizes l) ++ fs) >>= _ : Res Bytes) = _
      rw [Res.pure_def, Res.bind_ok, hs]
      show Res.ok (writeNum 2 11 ++ writeNum 2 (1 + TlsVec.sizes l) ++ _) = _
      rw [hs, writeNum_eq, writeNum_eq, writeNum_eq, beBytes_one, List.length_cons, Nat.add_comm 1]
      simp
    · show 4 + (1 + TlsVec.sizes l) = _
      rw [hs, List.length_cons]; omega

theorem exts_exist (es : List (Nat × Bytes)) (h : ∀ e ∈ es, ServerExt e) : ∃ xs : List Extension, (∀ x ∈ xs, wf x) ∧
    TlsVec.writeItems xs = .ok (es.flatMap fun e => beBytes 2 e.1 ++ beBytes 2 e.2.length ++ e.2) ∧
    TlsVec.sizes xs = (es.flatMap fun e => beBytes 2 e.1 ++ beBytes 2 e.2.length ++ e.2).length := by
  induction es with
  | nil => exact ⟨[], by simp, rfl, rfl⟩
  | cons e es ih =>
    obtain ⟨xs, h1, h2, h3⟩ := ih (fun x hx => h x (List.mem_cons_of_mem _ hx))
    obtain ⟨x, g1, g2, g3⟩ := ext_exists e (h e (by simp))
    refine ⟨x :: xs, ?_, ?_, ?_⟩
    · intro y hy
      rcases List.mem_cons.mp hy with rfl | hy
      · exact g1
      · exact h1 y hy
    · rw [TlsVec.writeItems, g2, Res.bind_ok, h2, Res.bind_ok]; rfl
    · rw [TlsVec.sizes, h3, g3, List.flatMap_cons, List.length_append]
      simp
      omega

/-- The extension part of a ServerHello: absent, or a block. -/
def extPart : Option (List (Nat × Bytes)) → Bytes
  | none => []
  | some es => extensionBlock es

theorem extPart_exists (es : Option (List (Nat × Bytes))) (h : ∀ l, es = some l → (∀ e ∈ l, ServerExt e) ∧ (extensionBlock l).length < 2 ^ 16 + 2) :
    ∃ x : Option ExtensionVec, wf x ∧ TlsItem.write x = .ok (extPart es) := by
  cases es with
  | none => exact ⟨none, trivial, rfl⟩
  | some l =>
    obtain ⟨h1, h2⟩ := h l rfl
    obtain ⟨xs, g1, g2, g3⟩ := exts_exist l h1
    simp only [extensionBlock, List.length_append, beBytes_length] at h2
    refine ⟨some ⟨xs⟩, ⟨g1, Nat.zero_le _, ?_⟩, ?_⟩
    · show TlsVec.sizes xs ≤ 65535
      rw [g3]; omega
    · show (TlsVec.writeItems xs >>= _) = _
      rw [g2, Res.bind_ok, g3]
      rfl

end Husk
