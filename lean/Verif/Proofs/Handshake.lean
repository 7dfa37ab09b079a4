import Verif.Proofs.TlsItem
import Verif.Spec.Codec
/-! Codec laws for the types of src/alert.rs, src/signature.rs, src/cipher/mod.rs and src/handshake.rs. -/

namespace Husk

open Item

theorem St.ext {x y : St σ α} (h : ∀ s, x.run s = y.run s) : x = y := by
  cases x; cases y
  congr 1
  funext s
  exact h s

instance : LawfulMonad (St σ) := LawfulMonad.mk'
  (id_map := by
    intro α x
    refine St.ext fun s => ?_
    show (x >>= fun a => pure (id a) : St σ α).run s = _
    rw [St.bind_run]
    rcases x.run s with ⟨r, s'⟩
    cases r <;> rfl)
  (pure_bind := by intros; rfl)
  (bind_assoc := by
    intro α β γ x f g
    refine St.ext fun s => ?_
    rw [St.bind_run, St.bind_run, St.bind_run]
    rcases x.run s with ⟨r, s'⟩
    cases r <;> rfl)

/-! ### enums -/

instance : LawfulEnum AlertLevel := ⟨by intro a; cases a <;> decide, by intro a; cases a <;> decide, by decide⟩
instance : LawfulEnum AlertDescription := ⟨by intro a; cases a <;> decide, by intro a; cases a <;> decide, by decide⟩
instance : LawfulEnum HashAlgorithm := ⟨by intro a; cases a <;> decide, by intro a; cases a <;> decide, by decide⟩
instance : LawfulEnum SignatureAlgorithm := ⟨by intro a; cases a <;> decide, by intro a; cases a <;> decide, by decide⟩
instance : LawfulEnum CompressionMethod := ⟨by intro a; cases a <;> decide, by intro a; cases a <;> decide, by decide⟩
instance : LawfulEnum NamedCurve := ⟨by intro a; cases a <;> decide, by intro a; cases a <;> decide, by decide⟩
instance : LawfulEnum ECPointFormat := ⟨by intro a; cases a <;> decide, by intro a; cases a <;> decide, by decide⟩
instance : LawfulEnum ClientCertificateType := ⟨by intro a; cases a <;> decide, by intro a; cases a <;> decide, by decide⟩

/-! ### cipher suites -/

instance : WFItem CipherSuite := ⟨fun _ => True⟩
instance : PosItem CipherSuite := ⟨fun _ => show 1 ≤ 2 by decide⟩

instance : LawfulItem CipherSuite where
  size_write x b _ h := by
    cases x
    · simp [TlsItem.write] at h
      simp [← h, TlsItem.size]
    · simp [TlsItem.write] at h
  read_write x b rest _ h := by
    cases x
    · simp [TlsItem.write] at h
      subst h
      rfl
    · simp [TlsItem.write] at h
  write_read bs rest x h := by
    refine ⟨trivial, ?_⟩
    simp only [TlsItem.read] at h
    obtain ⟨n1, s1, h1, h2⟩ := St.bind_eq_ok h
    obtain ⟨n2, s2, h3, h4⟩ := St.bind_eq_ok h2
    obtain ⟨e1, e2⟩ := readNum_inv h1
    obtain ⟨e3, e4⟩ := readNum_inv h3
    split at h4
    · rename_i hc
      rw [St.pure_run] at h4
      simp at h4
      obtain ⟨rfl, rfl⟩ := h4
      refine ⟨[0xcc, 0xa8], ?_, rfl, ?_⟩
      · rw [e2, e4, hc.1, hc.2]; rfl
      · intro b' hb
        simpa [TlsItem.write, eq_comm] using hb
    · rw [St.pure_run] at h4
      simp at h4
      obtain ⟨rfl, rfl⟩ := h4
      refine ⟨writeNum 1 n1 ++ writeNum 1 n2, by rw [e2, e4]; simp, by simp [writeNum_length, TlsItem.size], ?_⟩
      intro b' hb
      simp [TlsItem.write] at hb
  read_returns bs := by
    refine St.returns_bind (readNum_returns 1 bs) (fun n1 s1 _ => St.returns_bind (readNum_returns 1 s1) (fun n2 s2 _ => ?_))
    split <;> trivial
  write_returns x := by cases x <;> trivial

/-! ### structs -/

def Alert.iso : Iso Alert (AlertLevel × AlertDescription) where
  to a := (a.level, a.description)
  inv p := ⟨p.1, p.2⟩
  to_inv _ := rfl
  inv_to _ := rfl
  write _ := rfl
  size _ := rfl
  read bs := by simp only [TlsItem.read, bind_assoc, pure_bind]

instance : WFItem Alert := ⟨fun _ => True⟩
instance : LawfulItem Alert := Alert.iso.lawful (fun _ => ⟨fun _ => ⟨trivial, trivial⟩, fun _ => trivial⟩)

def SignatureAndHashAlgorithm.iso : Iso SignatureAndHashAlgorithm (HashAlgorithm × SignatureAlgorithm) where
  to a := (a.hash, a.signature)
  inv p := ⟨p.1, p.2⟩
  to_inv _ := rfl
  inv_to _ := rfl
  write _ := rfl
  size _ := rfl
  read bs := by simp only [TlsItem.read, bind_assoc, pure_bind]

instance : WFItem SignatureAndHashAlgorithm := ⟨fun _ => True⟩
instance : PosItem SignatureAndHashAlgorithm := ⟨fun _ => show 1 ≤ 1 + 1 by decide⟩
instance : LawfulItem SignatureAndHashAlgorithm :=
  SignatureAndHashAlgorithm.iso.lawful (fun _ => ⟨fun _ => ⟨trivial, trivial⟩, fun _ => trivial⟩)

instance : LawfulItem SignatureAndHashAlgorithmVec := TlsVec.lawful _ _ (by decide)
instance : LawfulItem Signature := TlsVec.lawful _ _ (by decide)

def DigitallySigned.iso : Iso DigitallySigned (SignatureAndHashAlgorithm × Signature) where
  to a := (a.algorithm, a.signature)
  inv p := ⟨p.1, p.2⟩
  to_inv _ := rfl
  inv_to _ := rfl
  write _ := rfl
  size _ := rfl
  read bs := by simp only [TlsItem.read, bind_assoc, pure_bind]

instance : WFItem DigitallySigned := ⟨fun a => wf a.signature⟩
instance : LawfulItem DigitallySigned := DigitallySigned.iso.lawful (fun _ => ⟨fun h => ⟨trivial, h⟩, fun h => h.2⟩)

instance : LawfulItem CipherSuiteVec := TlsVec.lawful _ _ (by decide)
instance : LawfulItem CompressionMethodVec := TlsVec.lawful _ _ (by decide)
instance : LawfulItem SessionId := TlsVec.lawful _ _ (by decide)
instance : LawfulItem Asn1Cert := TlsVec.lawful _ _ (by decide)
instance : LawfulItem EllipticCurveList := TlsVec.lawful _ _ (by decide)
instance : LawfulItem ECPointFormatList := TlsVec.lawful _ _ (by decide)
instance : LawfulItem CertificateList := TlsVec.lawful _ _ (by decide)
instance : LawfulItem CertificiateTypeVec := TlsVec.lawful _ _ (by decide)
instance : LawfulItem DistinguishedName := TlsVec.lawful _ _ (by decide)
instance : LawfulItem DistinguishedNameVec := TlsVec.lawful _ _ (by decide)

def ProtocolVersion.iso : Iso ProtocolVersion (UInt8 × UInt8) where
  to a := (a.major, a.minor)
  inv p := ⟨p.1, p.2⟩
  to_inv _ := rfl
  inv_to _ := rfl
  write _ := rfl
  size _ := rfl
  read bs := by simp only [TlsItem.read, bind_assoc, pure_bind]

instance : WFItem ProtocolVersion := ⟨fun _ => True⟩
instance : LawfulItem ProtocolVersion := ProtocolVersion.iso.lawful (fun _ => ⟨fun _ => ⟨trivial, trivial⟩, fun _ => trivial⟩)

/-! ### extensions -/

instance : WFItem Extension := ⟨fun e => e.bodySize ≤ 65535 ∧ match e with
  | .elliptic_curves l => wf l
  | .ec_point_formats l => wf l
  | .signature_algorithms l => wf l
  | .Unknown ty _ => ty ≠ 10 ∧ ty ≠ 11 ∧ ty ≠ 13⟩

instance : PosItem Extension := ⟨fun e => by show 1 ≤ 4 + _; omega⟩

namespace Extension

section
variable {α : Type} [TlsItem α] [WFItem α] [LawfulItem α]

theorem readBody_write (mk : α → Extension) (x : α) (b rest : Bytes) (hw : wf x) (h : TlsItem.write x = .ok b) :
    (readBody α (TlsItem.size x) mk).run (b ++ rest) = (.ok (mk x), rest) := by
  unfold readBody
  rw [St.bind_of_ok (LawfulItem.read_write x b rest hw h), if_neg (by simp), St.pure_run]

theorem readBody_inv {mk : α → Extension} {n : Nat} {bs rest : Bytes} {e : Extension} (h : (readBody α n mk).run bs = (.ok e, rest)) :
    ∃ x b, e = mk x ∧ n = TlsItem.size x ∧ wf x ∧ bs = b ++ rest ∧ b.length = n ∧ ∀ b', TlsItem.write x = .ok b' → b' = b := by
  unfold readBody at h
  obtain ⟨x, s1, h1, h2⟩ := St.bind_eq_ok h
  obtain ⟨w, b, e1, e2, e3⟩ := LawfulItem.write_read _ _ _ h1
  split at h2
  · simp [St.err_run] at h2
  · rename_i hn
    rw [St.pure_run] at h2
    simp at h2 hn
    obtain ⟨rfl, rfl⟩ := h2
    exact ⟨x, b, rfl, hn, w, e1, by omega, e3⟩

theorem readBody_returns (mk : α → Extension) (n : Nat) (bs : Bytes) : ((readBody α n mk).run bs).1.Returns := by
  unfold readBody
  refine St.returns_bind (LawfulItem.read_returns bs) (fun x s _ => ?_)
  split <;> trivial

end

end Extension

instance : LawfulItem Extension where
  size_write e b hw h := by
    cases e with
    | elliptic_curves l =>
      simp only [TlsItem.write] at h
      obtain ⟨b1, h1, h2⟩ := Res.bind_eq_ok.mp h
      simp at h2
      have := LawfulItem.size_write l b1 hw.2 h1
      rw [← h2]
      show _ = 4 + TlsItem.size l
      simp [writeNum_length, this]; omega
    | ec_point_formats l =>
      simp only [TlsItem.write] at h
      obtain ⟨b1, h1, h2⟩ := Res.bind_eq_ok.mp h
      simp at h2
      have := LawfulItem.size_write l b1 hw.2 h1
      rw [← h2]
      show _ = 4 + TlsItem.size l
      simp [writeNum_length, this]; omega
    | signature_algorithms l =>
      simp only [TlsItem.write] at h
      obtain ⟨b1, h1, h2⟩ := Res.bind_eq_ok.mp h
      simp at h2
      have := LawfulItem.size_write l b1 hw.2 h1
      rw [← h2]
      show _ = 4 + TlsItem.size l
      simp [writeNum_length, this]; omega
    | Unknown ty data =>
      simp only [TlsItem.write, Res.ok.injEq] at h
      rw [← h]
      show _ = 4 + data.length
      simp [writeNum_length]; omega
  read_write e b rest hw h := by
    simp only [TlsItem.read]
    have hs : e.bodySize < 256 ^ 2 := by have := hw.1; omega
    cases e with
    | elliptic_curves l =>
      simp only [TlsItem.write] at h
      obtain ⟨b1, h1, h2⟩ := Res.bind_eq_ok.mp h
      simp at h2
      subst h2
      rw [List.append_assoc, St.bind_of_ok (readNum_append 2 10 _ (by decide)), List.append_assoc, St.bind_of_ok (readNum_append 2 (TlsItem.size l) _ hs), if_pos rfl]
      exact Extension.readBody_write _ l b1 rest hw.2 h1
    | ec_point_formats l =>
      simp only [TlsItem.write] at h
      obtain ⟨b1, h1, h2⟩ := Res.bind_eq_ok.mp h
      simp at h2
      subst h2
      rw [List.append_assoc, St.bind_of_ok (readNum_append 2 11 _ (by decide)), List.append_assoc, St.bind_of_ok (readNum_append 2 (TlsItem.size l) _ hs), if_neg (by decide), if_pos rfl]
      exact Extension.readBody_write _ l b1 rest hw.2 h1
    | signature_algorithms l =>
      simp only [TlsItem.write] at h
      obtain ⟨b1, h1, h2⟩ := Res.bind_eq_ok.mp h
      simp at h2
      subst h2
      rw [List.append_assoc, St.bind_of_ok (readNum_append 2 13 _ (by decide)), List.append_assoc, St.bind_of_ok (readNum_append 2 (TlsItem.size l) _ hs), if_neg (by decide), if_neg (by decide), if_pos rfl]
      exact Extension.readBody_write _ l b1 rest hw.2 h1
    | Unknown ty data =>
      simp only [TlsItem.write, Res.ok.injEq] at h
      subst h
      obtain ⟨_, t1, t2, t3⟩ := hw
      have ht := ty.toNat_lt
      have key : ∀ k : UInt16, ty ≠ k → ty.toNat ≠ k.toNat := fun k hk hh => hk (UInt16.toNat_inj.mp hh)
      rw [List.append_assoc, List.append_assoc, St.bind_of_ok (readNum_append 2 ty.toNat _ (by omega)), St.bind_of_ok (readNum_append 2 data.length _ hs),
        if_neg (show ty.toNat ≠ 10 from key 10 t1), if_neg (show ty.toNat ≠ 11 from key 11 t2),
        if_neg (show ty.toNat ≠ 13 from key 13 t3), St.bind_of_ok (readExact_append data rest _ rfl), St.pure_run]
      simp
  write_read bs rest e h := by
    simp only [TlsItem.read] at h
    obtain ⟨ty, s1, h1, h2⟩ := St.bind_eq_ok h
    obtain ⟨n, s2, h3, h4⟩ := St.bind_eq_ok h2
    obtain ⟨ht, e1⟩ := readNum_inv h1
    obtain ⟨hn, e2⟩ := readNum_inv h3
    split at h4
    · rename_i hc
      obtain ⟨x, b, rfl, f1, f2, f3, f4, f5⟩ := Extension.readBody_inv h4
      refine ⟨⟨by show TlsItem.size x ≤ _; omega, f2⟩, writeNum 2 ty ++ writeNum 2 n ++ b, by rw [e1, e2, f3]; simp, ?_, ?_⟩
      · show _ = 4 + TlsItem.size x
        simp [writeNum_length]; omega
      · intro b' hb
        simp only [TlsItem.write] at hb
        obtain ⟨b1, g1, g2⟩ := Res.bind_eq_ok.mp hb
        simp at g2
        rw [← g2, f5 b1 g1, hc, f1]
        simp
    · split at h4
      · rename_i hc
        obtain ⟨x, b, rfl, f1, f2, f3, f4, f5⟩ := Extension.readBody_inv h4
        refine ⟨⟨by show TlsItem.size x ≤ _; omega, f2⟩, writeNum 2 ty ++ writeNum 2 n ++ b, by rw [e1, e2, f3]; simp, ?_, ?_⟩
        · show _ = 4 + TlsItem.size x
          simp [writeNum_length]; omega
        · intro b' hb
          simp only [TlsItem.write] at hb
          obtain ⟨b1, g1, g2⟩ := Res.bind_eq_ok.mp hb
          simp at g2
          rw [← g2, f5 b1 g1, hc, f1]
          simp
      · split at h4
        · rename_i hc
          obtain ⟨x, b, rfl, f1, f2, f3, f4, f5⟩ := Extension.readBody_inv h4
          refine ⟨⟨by show TlsItem.size x ≤ _; omega, f2⟩, writeNum 2 ty ++ writeNum 2 n ++ b, by rw [e1, e2, f3]; simp, ?_, ?_⟩
          · show _ = 4 + TlsItem.size x
            simp [writeNum_length]; omega
          · intro b' hb
            simp only [TlsItem.write] at hb
            obtain ⟨b1, g1, g2⟩ := Res.bind_eq_ok.mp hb
            simp at g2
            rw [← g2, f5 b1 g1, hc, f1]
            simp
        · rename_i c1 c2 c3
          obtain ⟨data, s3, h5, h6⟩ := St.bind_eq_ok h4
          obtain ⟨f1, f2⟩ := readExact_inv h5
          rw [St.pure_run] at h6
          simp at h6
          obtain ⟨rfl, rfl⟩ := h6
          have hto : (UInt16.ofNat ty).toNat = ty := by
            rw [UInt16.toNat_ofNat']; exact Nat.mod_eq_of_lt (by omega)
          have key : ∀ k : UInt16, ty ≠ k.toNat → UInt16.ofNat ty ≠ k := by
            intro k hk hh
            rw [← hh, hto] at hk
            exact hk rfl
          refine ⟨⟨by show data.length ≤ _; omega, key 10 c1, key 11 c2, key 13 c3⟩, writeNum 2 ty ++ writeNum 2 n ++ data, by rw [e1, e2, f2]; simp, ?_, ?_⟩
          · show _ = 4 + data.length
            simp [writeNum_length]; omega
          · intro b' hb
            simp only [TlsItem.write, Res.ok.injEq] at hb
            rw [← hb, hto, f1]
  read_returns bs := by
    simp only [TlsItem.read]
    refine St.returns_bind (readNum_returns _ bs) (fun ty s1 _ => St.returns_bind (readNum_returns _ s1) (fun n s2 _ => ?_))
    split
    · exact Extension.readBody_returns _ _ _
    · split
      · exact Extension.readBody_returns _ _ _
      · split
        · exact Extension.readBody_returns _ _ _
        · exact St.returns_bind (readExact_returns _ _) (fun _ _ _ => trivial)
  write_returns e := by
    cases e with
    | elliptic_curves l => exact Res.returns_bind (LawfulItem.write_returns l) (fun _ _ => trivial)
    | ec_point_formats l => exact Res.returns_bind (LawfulItem.write_returns l) (fun _ _ => trivial)
    | signature_algorithms l => exact Res.returns_bind (LawfulItem.write_returns l) (fun _ _ => trivial)
    | Unknown ty data => trivial

instance : LawfulItem ExtensionVec := TlsVec.lawful _ _ (by decide)

/-! ### hellos -/

def ClientHello.iso : Iso ClientHello (ProtocolVersion × Random × SessionId × CipherSuiteVec × CompressionMethodVec × Option ExtensionVec) where
  to a := (a.clientVersion, a.random, a.sessionId, a.cipherSuites, a.compressionMethods, a.extensions)
  inv p := ⟨p.1, p.2.1, p.2.2.1, p.2.2.2.1, p.2.2.2.2.1, p.2.2.2.2.2⟩
  to_inv _ := rfl
  inv_to _ := rfl
  write a := by
    show _ = (do
      let b1 ← TlsItem.write a.clientVersion
      let r ← (do
        let b2 ← TlsItem.write a.random
        let r ← (do
          let b3 ← TlsItem.write a.sessionId
          let r ← (do
            let b4 ← TlsItem.write a.cipherSuites
            let r ← (do
              let b5 ← TlsItem.write a.compressionMethods
              let b6 ← TlsItem.write a.extensions
              return b5 ++ b6)
            return b4 ++ r)
          return b3 ++ r)
        return b2 ++ r)
      return b1 ++ r)
    simp only [bind_assoc, pure_bind]
    rfl
  size a := by
    show TlsItem.size a.clientVersion + TlsItem.size a.random + TlsItem.size a.sessionId + TlsItem.size a.cipherSuites +
      TlsItem.size a.compressionMethods + TlsItem.size a.extensions = TlsItem.size a.clientVersion + (TlsItem.size a.random + (TlsItem.size a.sessionId + (TlsItem.size a.cipherSuites +
      (TlsItem.size a.compressionMethods + TlsItem.size a.extensions))))
    omega
  read bs := by
    show _ = ((do
      let b1 ← TlsItem.read (α := ProtocolVersion)
      let r ← (do
        let b2 ← TlsItem.read (α := Random)
        let r ← (do
          let b3 ← TlsItem.read (α := SessionId)
          let r ← (do
            let b4 ← TlsItem.read (α := CipherSuiteVec)
            let r ← (do
              let b5 ← TlsItem.read (α := CompressionMethodVec)
              let b6 ← TlsItem.read (α := Option ExtensionVec)
              return (b5, b6))
            return (b4, r))
          return (b3, r))
        return (b2, r))
      return (b1, r)) >>= _ : P _).run bs
    simp only [bind_assoc, pure_bind]
    rfl

instance : WFItem ClientHello := ⟨fun h => wf h.random ∧ wf h.sessionId ∧ wf h.cipherSuites ∧ wf h.compressionMethods ∧ wf h.extensions⟩
instance : LooseItem ClientHello := ⟨fun h => h.extensions ≠ none⟩
instance : LawfulTail ClientHello := ClientHello.iso.lawfulTail
  (fun _ => ⟨fun h => ⟨trivial, h⟩, fun h => h.2⟩) (fun _ h => h)

def ServerHello.iso : Iso ServerHello (ProtocolVersion × Random × SessionId × CipherSuite × CompressionMethod × Option ExtensionVec) where
  to a := (a.serverVersion, a.random, a.sessionId, a.cipherSuite, a.compressionMethod, a.extensions)
  inv p := ⟨p.1, p.2.1, p.2.2.1, p.2.2.2.1, p.2.2.2.2.1, p.2.2.2.2.2⟩
  to_inv _ := rfl
  inv_to _ := rfl
  write a := by
    show _ = (do
      let b1 ← TlsItem.write a.serverVersion
      let r ← (do
        let b2 ← TlsItem.write a.random
        let r ← (do
          let b3 ← TlsItem.write a.sessionId
          let r ← (do
            let b4 ← TlsItem.write a.cipherSuite
            let r ← (do
              let b5 ← TlsItem.write a.compressionMethod
              let b6 ← TlsItem.write a.extensions
              return b5 ++ b6)
            return b4 ++ r)
          return b3 ++ r)
        return b2 ++ r)
      return b1 ++ r)
    simp only [bind_assoc, pure_bind]
    rfl
  size a := by
    show TlsItem.size a.serverVersion + TlsItem.size a.random + TlsItem.size a.sessionId + TlsItem.size a.cipherSuite +
      TlsItem.size a.compressionMethod + TlsItem.size a.extensions = TlsItem.size a.serverVersion + (TlsItem.size a.random + (TlsItem.size a.sessionId + (TlsItem.size a.cipherSuite +
      (TlsItem.size a.compressionMethod + TlsItem.size a.extensions))))
    omega
  read bs := by
    show _ = ((do
      let b1 ← TlsItem.read (α := ProtocolVersion)
      let r ← (do
        let b2 ← TlsItem.read (α := Random)
        let r ← (do
          let b3 ← TlsItem.read (α := SessionId)
          let r ← (do
            let b4 ← TlsItem.read (α := CipherSuite)
            let r ← (do
              let b5 ← TlsItem.read (α := CompressionMethod)
              let b6 ← TlsItem.read (α := Option ExtensionVec)
              return (b5, b6))
            return (b4, r))
          return (b3, r))
        return (b2, r))
      return (b1, r)) >>= _ : P _).run bs
    simp only [bind_assoc, pure_bind]
    rfl

instance : WFItem ServerHello := ⟨fun h => wf h.random ∧ wf h.sessionId ∧ wf h.extensions⟩
instance : LooseItem ServerHello := ⟨fun h => h.extensions ≠ none⟩
instance : LawfulTail ServerHello := ServerHello.iso.lawfulTail
  (fun _ => ⟨fun h => ⟨trivial, h.1, h.2.1, trivial, trivial, h.2.2⟩, fun h => ⟨h.2.1, h.2.2.1, h.2.2.2.2.2⟩⟩) (fun _ h => h)

def CertificateRequest.iso : Iso CertificateRequest (CertificiateTypeVec × SignatureAndHashAlgorithmVec × DistinguishedNameVec) where
  to a := (a.certificateTypes, a.supportedSignatureAlgorithms, a.certificateAuthorities)
  inv p := ⟨p.1, p.2.1, p.2.2⟩
  to_inv _ := rfl
  inv_to _ := rfl
  write a := by
    show _ = (do
      let b1 ← TlsItem.write a.certificateTypes
      let r ← (do
        let b2 ← TlsItem.write a.supportedSignatureAlgorithms
        let b3 ← TlsItem.write a.certificateAuthorities
        return b2 ++ b3)
      return b1 ++ r)
    simp only [bind_assoc, pure_bind]
    rfl
  size a := by
    show TlsItem.size a.certificateTypes + TlsItem.size a.supportedSignatureAlgorithms + TlsItem.size a.certificateAuthorities =
      TlsItem.size a.certificateTypes + (TlsItem.size a.supportedSignatureAlgorithms + TlsItem.size a.certificateAuthorities)
    omega
  read bs := by
    show _ = ((do
      let b1 ← TlsItem.read (α := CertificiateTypeVec)
      let r ← (do
        let b2 ← TlsItem.read (α := SignatureAndHashAlgorithmVec)
        let b3 ← TlsItem.read (α := DistinguishedNameVec)
        return (b2, b3))
      return (b1, r)) >>= _ : P _).run bs
    simp only [bind_assoc, pure_bind]
    rfl

instance : WFItem CertificateRequest :=
  ⟨fun h => wf h.certificateTypes ∧ wf h.supportedSignatureAlgorithms ∧ wf h.certificateAuthorities⟩
instance : LawfulItem CertificateRequest := CertificateRequest.iso.lawful (fun _ => Iff.rfl)

/-! ### handshake messages -/

instance : WFItem Handshake := ⟨fun
  | .hello_request b => wf b
  | .client_hello b => wf b
  | .server_hello b => wf b
  | .certificate b => wf b
  | .server_key_exchange b => wf b
  | .certificate_request b => wf b
  | .server_hello_done b => wf b
  | .client_key_exchange b => wf b
  | .finished b => wf b⟩

namespace Handshake

/-- What is known about reading `body` as the body of `h`. -/
def BodyOk (h : Handshake) (body : Bytes) : Prop :=
  body.length + 4 = TlsItem.size h ∧ (readArm (Spec.typeOf h).toNat).run body = (.ok h, [])

section
variable {α : Type} [TlsItem α] [WFItem α]

omit [WFItem α] in
theorem writeBody_inv {num : Nat} {x : α} {b : Bytes} (h : writeBody num x = .ok b) :
    ∃ c, TlsItem.write x = .ok c ∧ b = writeNum 1 num ++ (writeNum 3 (TlsItem.size x) ++ c) := by
  unfold writeBody at h
  obtain ⟨c, h1, h2⟩ := Res.bind_eq_ok.mp h
  simp at h2
  exact ⟨c, h1, by rw [← h2]⟩

theorem readBody_write [LawfulItem α] (mk : α → Handshake) (x : α) (b : Bytes) (hw : wf x) (h : TlsItem.write x = .ok b) :
    (readBody α mk).run b = (.ok (mk x), []) := by
  unfold readBody
  have := LawfulItem.read_write x b [] hw h
  rw [List.append_nil] at this
  rw [St.bind_of_ok this, St.pure_run]

theorem readBody_write_tail [LooseItem α] [LawfulTail α] (mk : α → Handshake) (x : α) (b : Bytes) (hw : wf x) (h : TlsItem.write x = .ok b) :
    (readBody α mk).run b = (.ok (mk x), []) := by
  unfold readBody
  rw [St.bind_of_ok (LawfulTail.read_write x b hw h), St.pure_run]

theorem readBody_inv [LawfulItem α] {mk : α → Handshake} {bs rest : Bytes} {h : Handshake} (hr : (readBody α mk).run bs = (.ok h, rest)) :
    ∃ x b, h = mk x ∧ wf x ∧ bs = b ++ rest ∧ b.length = TlsItem.size x ∧ ∀ b', TlsItem.write x = .ok b' → b' = b := by
  unfold readBody at hr
  obtain ⟨x, s1, h1, h2⟩ := St.bind_eq_ok hr
  obtain ⟨w, b, e1, e2, e3⟩ := LawfulItem.write_read _ _ _ h1
  rw [St.pure_run] at h2
  simp at h2
  obtain ⟨rfl, rfl⟩ := h2
  exact ⟨x, b, rfl, w, e1, e2, e3⟩

theorem readBody_inv_tail [LooseItem α] [LawfulTail α] {mk : α → Handshake} {bs rest : Bytes} {h : Handshake} (hr : (readBody α mk).run bs = (.ok h, rest)) :
    rest = [] ∧ ∃ x b junk, h = mk x ∧ wf x ∧ bs = b ++ junk ∧ b.length = TlsItem.size x ∧ (∀ b', TlsItem.write x = .ok b' → b' = b) ∧
      (¬ loose x → junk = []) := by
  unfold readBody at hr
  obtain ⟨x, s1, h1, h2⟩ := St.bind_eq_ok hr
  obtain ⟨r, w, b, junk, e1, e2, e3, e4⟩ := LawfulTail.write_read _ _ _ h1
  rw [St.pure_run] at h2
  simp at h2
  obtain ⟨rfl, rfl⟩ := h2
  exact ⟨r, x, b, junk, rfl, w, e1, e2, e3, e4⟩

theorem readBody_returns [LawfulItem α] (mk : α → Handshake) (bs : Bytes) : ((readBody α mk).run bs).1.Returns :=
  St.returns_bind (LawfulItem.read_returns bs) (fun _ _ _ => trivial)

theorem readBody_returns_tail [LooseItem α] [LawfulTail α] (mk : α → Handshake) (bs : Bytes) : ((readBody α mk).run bs).1.Returns :=
  St.returns_bind (LawfulTail.read_returns bs) (fun _ _ _ => trivial)

end

theorem write_inv {h : Handshake} {b : Bytes} (hw : wf h) (hb : TlsItem.write h = .ok b) :
    ∃ body, b = writeNum 1 (Spec.typeOf h).toNat ++ (writeNum 3 body.length ++ body) ∧ BodyOk h body := by
  cases h with
  | hello_request x =>
    obtain ⟨c, h1, h2⟩ := writeBody_inv hb
    have hl := LawfulItem.size_write x c hw h1
    exact ⟨c, by rw [h2, hl]; rfl, by rw [hl]; exact Nat.add_comm _ _, readBody_write _ x c hw h1⟩
  | client_hello x =>
    obtain ⟨c, h1, h2⟩ := writeBody_inv hb
    have hl := LawfulTail.size_write x c hw h1
    exact ⟨c, by rw [h2, hl]; rfl, by rw [hl]; exact Nat.add_comm _ _, readBody_write_tail _ x c hw h1⟩
  | server_hello x =>
    obtain ⟨c, h1, h2⟩ := writeBody_inv hb
    have hl := LawfulTail.size_write x c hw h1
    exact ⟨c, by rw [h2, hl]; rfl, by rw [hl]; exact Nat.add_comm _ _, readBody_write_tail _ x c hw h1⟩
  | certificate x =>
    obtain ⟨c, h1, h2⟩ := writeBody_inv hb
    have hl := LawfulItem.size_write x c hw h1
    exact ⟨c, by rw [h2, hl]; rfl, by rw [hl]; exact Nat.add_comm _ _, readBody_write _ x c hw h1⟩
  | server_key_exchange x =>
    obtain ⟨c, h1, h2⟩ := writeBody_inv hb
    have hl := LawfulTail.size_write x c hw h1
    exact ⟨c, by rw [h2, hl]; rfl, by rw [hl]; exact Nat.add_comm _ _, readBody_write_tail _ x c hw h1⟩
  | certificate_request x =>
    obtain ⟨c, h1, h2⟩ := writeBody_inv hb
    have hl := LawfulItem.size_write x c hw h1
    exact ⟨c, by rw [h2, hl]; rfl, by rw [hl]; exact Nat.add_comm _ _, readBody_write _ x c hw h1⟩
  | server_hello_done x =>
    obtain ⟨c, h1, h2⟩ := writeBody_inv hb
    have hl := LawfulItem.size_write x c hw h1
    exact ⟨c, by rw [h2, hl]; rfl, by rw [hl]; exact Nat.add_comm _ _, readBody_write _ x c hw h1⟩
  | client_key_exchange x =>
    obtain ⟨c, h1, h2⟩ := writeBody_inv hb
    have hl := LawfulTail.size_write x c hw h1
    exact ⟨c, by rw [h2, hl]; rfl, by rw [hl]; exact Nat.add_comm _ _, readBody_write_tail _ x c hw h1⟩
  | finished x =>
    obtain ⟨c, h1, h2⟩ := writeBody_inv hb
    have hl := LawfulItem.size_write x c hw h1
    exact ⟨c, by rw [h2, hl]; rfl, by rw [hl]; exact Nat.add_comm _ _, readBody_write _ x c hw h1⟩

/-- What a successful `readArm` says. -/
def ArmOk (ty : Nat) (bs rest : Bytes) (h : Handshake) : Prop :=
  ty = (Spec.typeOf h).toNat ∧ wf h ∧ ∃ body junk, bs = body ++ (junk ++ rest) ∧ body.length + 4 = TlsItem.size h ∧
    (∀ b', TlsItem.write h = .ok b' → b' = writeNum 1 ty ++ (writeNum 3 body.length ++ body)) ∧
    (¬ Spec.HasExtensionBlock h → junk = [])

theorem armOk_of_item [TlsItem α] [WFItem α] [LawfulItem α] {mk : α → Handshake} {ty : Nat} {bs rest : Bytes} {h : Handshake}
    (hr : (readBody α mk).run bs = (.ok h, rest)) (ht : ∀ x, (Spec.typeOf (mk x)).toNat = ty) (hw : ∀ x, wf x → wf (mk x))
    (hs : ∀ x, TlsItem.size (mk x) = 4 + TlsItem.size x) (hwr : ∀ x, TlsItem.write (mk x) = writeBody ty x) : ArmOk ty bs rest h := by
  obtain ⟨x, b, rfl, w, e1, e2, e3⟩ := readBody_inv hr
  refine ⟨(ht x).symm, hw x w, b, [], by rw [e1]; simp, by rw [hs]; omega, ?_, fun _ => rfl⟩
  intro b' hb
  rw [hwr] at hb
  obtain ⟨c, h1, h2⟩ := writeBody_inv hb
  rw [h2, e3 c h1, e2]

theorem armOk_of_tail [TlsItem α] [WFItem α] [LooseItem α] [LawfulTail α] {mk : α → Handshake} {ty : Nat} {bs rest : Bytes} {h : Handshake}
    (hr : (readBody α mk).run bs = (.ok h, rest)) (ht : ∀ x, (Spec.typeOf (mk x)).toNat = ty) (hw : ∀ x, wf x → wf (mk x))
    (hs : ∀ x, TlsItem.size (mk x) = 4 + TlsItem.size x) (hwr : ∀ x, TlsItem.write (mk x) = writeBody ty x)
    (hl : ∀ x, loose x → Spec.HasExtensionBlock (mk x)) : ArmOk ty bs rest h := by
  obtain ⟨rfl, x, b, junk, rfl, w, e1, e2, e3, e4⟩ := readBody_inv_tail hr
  refine ⟨(ht x).symm, hw x w, b, junk, by rw [e1]; simp, by rw [hs]; omega, ?_, fun hn => e4 (fun h => hn (hl x h))⟩
  intro b' hb
  rw [hwr] at hb
  obtain ⟨c, h1, h2⟩ := writeBody_inv hb
  rw [h2, e3 c h1, e2]

theorem readArm_inv {ty : Nat} {bs rest : Bytes} {h : Handshake} (hr : (readArm ty).run bs = (.ok h, rest)) : ArmOk ty bs rest h := by
  unfold readArm at hr
  split at hr
  · subst ty; exact armOk_of_item hr (fun _ => rfl) (fun _ h => h) (fun _ => rfl) (fun _ => rfl)
  split at hr
  · subst ty; exact armOk_of_tail hr (fun _ => rfl) (fun _ h => h) (fun _ => rfl) (fun _ => rfl) (fun _ h => h)
  split at hr
  · subst ty; exact armOk_of_tail hr (fun _ => rfl) (fun _ h => h) (fun _ => rfl) (fun _ => rfl) (fun _ h => h)
  split at hr
  · subst ty; exact armOk_of_item hr (fun _ => rfl) (fun _ h => h) (fun _ => rfl) (fun _ => rfl)
  split at hr
  · subst ty; exact armOk_of_tail hr (fun _ => rfl) (fun _ h => h) (fun _ => rfl) (fun _ => rfl) (fun _ h => False.elim h)
  split at hr
  · subst ty; exact armOk_of_item hr (fun _ => rfl) (fun _ h => h) (fun _ => rfl) (fun _ => rfl)
  split at hr
  · subst ty; exact armOk_of_item hr (fun _ => rfl) (fun _ h => h) (fun _ => rfl) (fun _ => rfl)
  split at hr
  · subst ty; exact armOk_of_tail hr (fun _ => rfl) (fun _ h => h) (fun _ => rfl) (fun _ => rfl) (fun _ h => False.elim h)
  split at hr
  · subst ty; exact armOk_of_item hr (fun _ => rfl) (fun _ h => h) (fun _ => rfl) (fun _ => rfl)
  · simp [St.err_run] at hr

theorem readArm_returns (ty : Nat) (bs : Bytes) : ((readArm ty).run bs).1.Returns := by
  unfold readArm
  split; · exact readBody_returns _ _
  split; · exact readBody_returns_tail _ _
  split; · exact readBody_returns_tail _ _
  split; · exact readBody_returns _ _
  split; · exact readBody_returns_tail _ _
  split; · exact readBody_returns _ _
  split; · exact readBody_returns _ _
  split; · exact readBody_returns_tail _ _
  split; · exact readBody_returns _ _
  trivial

theorem checkEnd_run (rest : Bytes) (h : Handshake) :
    (checkEnd h).run rest = if rest = [] then (.ok h, []) else (.err .InternalError, rest.drop 1) := by
  cases rest with
  | nil => rfl
  | cons b rest =>
    rw [if_neg (by simp)]
    have h1 := readExact_append [b] rest 1 rfl
    have : (readNum 1).run (b :: rest) = (.ok (beNat [b]), rest) := by
      unfold readNum
      rw [show b :: rest = [b] ++ rest from rfl, St.bind_of_ok h1, St.pure_run]
    unfold checkEnd
    simp only [this]
    rfl

theorem read_inv {bs rest : Bytes} {h : Handshake} (hr : (TlsItem.read (α := Handshake)).run bs = (.ok h, rest)) :
    rest = [] ∧ ∃ n body, bs = writeNum 1 (Spec.typeOf h).toNat ++ (writeNum 3 n ++ body) ∧ n < 2 ^ 24 ∧ ArmOk (Spec.typeOf h).toNat body [] h := by
  simp only [TlsItem.read] at hr
  obtain ⟨ty, s1, h1, h2⟩ := St.bind_eq_ok hr
  obtain ⟨n, s2, h3, h4⟩ := St.bind_eq_ok h2
  obtain ⟨ret, s3, h5, h8⟩ := St.bind_eq_ok h4
  rw [checkEnd_run] at h8
  split at h8
  · rename_i he
    subst he
    simp at h8
    obtain ⟨rfl, rfl⟩ := h8
    have ha := readArm_inv h5
    obtain ⟨e1, e2⟩ := readNum_inv h1
    obtain ⟨e3, e4⟩ := readNum_inv h3
    refine ⟨rfl, n, s2, by rw [e2, e4, ha.1], by simpa using e3, ?_⟩
    rw [← ha.1]; exact ha
  · simp at h8

theorem read_returns (bs : Bytes) : ((TlsItem.read (α := Handshake)).run bs).1.Returns := by
  simp only [TlsItem.read]
  refine St.returns_bind (readNum_returns _ bs) (fun ty s1 _ => St.returns_bind (readNum_returns _ s1) (fun n s2 _ =>
    St.returns_bind (readArm_returns _ _) (fun ret s3 _ => ?_)))
  rw [checkEnd_run]
  split <;> trivial

/-- Reading a framed body; the length field is ignored. -/
theorem read_of_arm {h : Handshake} {n : Nat} {body : Bytes} (hr : (readArm (Spec.typeOf h).toNat).run body = (.ok h, [])) :
    (TlsItem.read (α := Handshake)).run (writeNum 1 (Spec.typeOf h).toNat ++ (writeNum 3 n ++ body)) = (.ok h, []) := by
  simp only [TlsItem.read]
  rw [St.bind_of_ok (readNum_append 1 _ _ (by have := (Spec.typeOf h).toNat_lt; omega))]
  have h3 : (readNum 3).run (writeNum 3 n ++ body) = (.ok (beNat (writeNum 3 n)), body) := by
    unfold readNum
    rw [St.bind_of_ok (readExact_append (writeNum 3 n) body 3 (writeNum_length 3 n)), St.pure_run]
  rw [St.bind_of_ok h3, St.bind_of_ok hr, checkEnd_run, if_pos rfl]

theorem read_write {h : Handshake} {b : Bytes} (hw : wf h) (hb : TlsItem.write h = .ok b) :
    (TlsItem.read (α := Handshake)).run b = (.ok h, []) := by
  obtain ⟨body, rfl, hbody⟩ := write_inv hw hb
  exact read_of_arm hbody.2

end Handshake

end Husk
