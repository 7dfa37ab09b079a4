import Verif.Props.HandshakeSuccess
/-! C08 at the client, and C59, C60: what the client does with the first message of the server. -/

namespace Husk

open Item Spec TlsReader TlsClient

/-- The bytes of a ServerHello with any values in its fields, RFC 5246 7.4.1.3. -/
def anyServerHello (major minor : UInt8) (random sessionId : Bytes) (s1 s2 compression : UInt8) (ext : Bytes) : Bytes :=
  handshakeBytes 2 ([major, minor] ++ random ++ (UInt8.ofNat sessionId.length :: sessionId) ++ [s1, s2] ++ [compression] ++ ext)

theorem read_serverHello (major minor : UInt8) (random sessionId : Bytes) (s1 s2 : UInt8) (cm : CompressionMethod) (x : Option ExtensionVec) (ext : Bytes)
    (hr : random.length = 32) (hs : sessionId.length ≤ 32) (hx : wf x) (he : TlsItem.write x = .ok ext) :
    (TlsItem.read (α := ServerHello)).run ([major, minor] ++ random ++ (UInt8.ofNat sessionId.length :: sessionId) ++ [s1, s2] ++ [UInt8.ofNat (TlsEnum.code cm)] ++ ext) =
      (.ok ⟨⟨major, minor⟩, ⟨random⟩, ⟨sessionId⟩, if s1 = 0xcc ∧ s2 = 0xa8 then .TLS_ECDHE_RSA_WITH_CHACHA20_POLY1305_SHA256 else .UnknownCipherSuite, cm, x⟩, []) := by
  have hu : ∀ u : UInt8, TlsItem.write u = .ok [u] := fun u => by
    show Res.ok (writeNum 1 u.toNat) = _
    rw [writeNum_eq, beBytes_one, UInt8.ofNat_toNat]
  have hv : TlsItem.write (⟨major, minor⟩ : ProtocolVersion) = .ok [major, minor] := by
    show (do let x ← TlsItem.write major; let y ← TlsItem.write minor; return x ++ y) = _
    rw [hu, hu]; rfl
  have h1 := fun t => LawfulItem.read_write (α := ProtocolVersion) ⟨major, minor⟩ [major, minor] t trivial hv
  have h2 := fun t => LawfulItem.read_write (α := Random) ⟨random⟩ random t hr rfl
  have h3 := fun t => LawfulItem.read_write (α := SessionId) ⟨sessionId⟩ (UInt8.ofNat sessionId.length :: sessionId) t ((wf_byteVec _).mpr ⟨Nat.zero_le _, hs⟩) (write_byteVec _)
  have h4 := fun t => C08_suite_decode s1 s2 t
  have h5 := fun t => LawfulItem.read_write (α := CompressionMethod) cm [UInt8.ofNat (TlsEnum.code cm)] t trivial (by cases cm <;> rfl)
  have h6 := LawfulTail.read_write (α := Option ExtensionVec) x ext hx he
  have e : [major, minor] ++ random ++ (UInt8.ofNat sessionId.length :: sessionId) ++ [s1, s2] ++ [UInt8.ofNat (TlsEnum.code cm)] ++ ext =
      [major, minor] ++ (random ++ ((UInt8.ofNat sessionId.length :: sessionId) ++ (s1 :: s2 :: ([UInt8.ofNat (TlsEnum.code cm)] ++ ext)))) := by simp
  rw [e]
  simp only [TlsItem.read] at h1 h2 h3 h4 h5 h6 ⊢
  rw [St.bind_of_ok (h1 _), St.bind_of_ok (h2 _), St.bind_of_ok (h3 _), St.bind_of_ok (h4 _), St.bind_of_ok (h5 _), St.bind_of_ok h6]
  rfl

/-- `new` when the first message of the server is known: the ClientHello is sent, then the message is read. -/
theorem new_first (m : Mode) (rd : Reader) (wr : Writer) (rng : Rng) (hfa : wr.faults = []) (hrng : 32 ≤ rng.bytes.length) {b more : Bytes} {h : Handshake} (hb : Framed b h)
    (fs : List Bytes) (hc : Cuts fs (b ++ more)) (l : List Sym) (hrd : rd.stream = ofBytes (fs.flatMap (recordBytes 22 3 3)) ++ l) :
    (∀ sh, h = .server_hello sh → ¬ (sh.serverVersion = ⟨3, 3⟩ ∧ sh.cipherSuite = .TLS_ECDHE_RSA_WITH_CHACHA20_POLY1305_SHA256 ∧ sh.compressionMethod = .null) →
      (TlsClient.new m rd wr rng).1 = .err .IllegalParameter) ∧
    ((∀ sh, h ≠ .server_hello sh) → (TlsClient.new m rd wr rng).1 = .err .UnexpectedMessage) := by
  obtain ⟨wA, sentA, hA, hAm, hAf, hAe, hAi, hAc, hAl⟩ := fragments_sent hc.1.le .HandshakeTy (TlsWriter.new {}) (sealsShort_plain rfl) rfl (by have := hc.2.1; show 0 + _ < _; omega)
  obtain ⟨hArec, hApay⟩ := hc.1.records hAm
  have hAhs : HandshakeRecords sentA := fun rc h => ⟨(hArec rc h).1, (hArec rc h).2.1⟩
  have hAwire := sent_plain hA rfl hAm
  have hI0 : Incoming (TlsWriter.new {}) sentA wA l (fresh rd wr rng).reader := by
    refine ⟨hA, ⟨rfl, rfl, Or.inl ⟨rfl, rfl⟩⟩, fun rc h => (hArec rc h).2.2, ?_, ?_⟩
    · rw [hAl]; have := hc.2.1; show 0 + _ < _; omega
    · show rd.stream = _
      rw [hrd, hAwire]; rfl
  obtain ⟨w1, sent1, s1, r1, i1, x1, y1, z1⟩ := hI0.readFramed m hAhs hb (bs := more) (by rw [hApay, ← hc.2.2]; rfl)
  have hsend : ∃ cr rest w', (sendHello m).run (fresh rd wr rng) = (.ok (cr, helloMessage cr), { fresh rd wr rng with rng := ⟨rest⟩, writer := w' }) := by
    rcases sendHello_cases m (fresh rd wr rng) rfl rfl with ⟨_, h2⟩ | ⟨cr', rest', hr, hl, ⟨w1, h1, h2⟩ | ⟨w1, n, h1, h2, _⟩⟩
    · exact absurd h2 (by show ¬ rng.bytes.length < 32; omega)
    · exact ⟨cr', rest', w1, h1⟩
    · exact absurd hfa h2
  obtain ⟨cr, rest, w', hsh⟩ := hsend
  have key : ∀ k : TlsErrorKind, k ≠ .IoFailure → (readFlight m).run { fresh rd wr rng with rng := ⟨rest⟩, writer := w' } =
      (.err k, { fresh rd wr rng with rng := ⟨rest⟩, writer := w', reader := s1 }) → (TlsClient.new m rd wr rng).1 = .err k := by
    intro k hk he
    have hrun : (handshake m).run (fresh rd wr rng) = (.err k, { fresh rd wr rng with rng := ⟨rest⟩, writer := w', reader := s1 }) := by
      rw [handshake, St.bind_of_ok hsh]
      dsimp only
      rw [St.bind_of_err he]
    exact (C32_error m rd wr rng _ _ hrun).2.1 hk hfa
  constructor
  · rintro sh rfl hne
    refine key _ (by decide) ?_
    rw [readFlight, St.bind_of_ok (onReader_ok (c := { fresh rd wr rng with rng := ⟨rest⟩, writer := w' }) (expectServerHello_iff.mpr r1)), checkServerHello_eq, if_neg hne,
      St.bind_of_err (St.lift_run _ _)]
  · intro hne
    refine key _ (by decide) ?_
    have : (expectServerHello m).run (fresh rd wr rng).reader = (.err .UnexpectedMessage, s1) := by
      rw [expectServerHello, St.bind_of_ok (readHandshake_ok r1)]
      cases h with
      | server_hello sh => exact absurd rfl (hne sh)
      | _ => rfl
    rw [readFlight, St.bind_of_err (onReader_ok (c := { fresh rd wr rng with rng := ⟨rest⟩, writer := w' }) this)]

/-- C08 and C59: a ServerHello with another version, another suite or another compression method is refused with IllegalParameter, whatever its other fields
are, however it is cut into records and whatever follows. -/
theorem C59_hello_refused (m : Mode) (rd : Reader) (wr : Writer) (rng : Rng) (hfa : wr.faults = []) (hrng : 32 ≤ rng.bytes.length)
    (major minor : UInt8) (random sessionId : Bytes) (s1 s2 compression : UInt8) (exts : Option (List (Nat × Bytes))) (hr : random.length = 32) (hs : sessionId.length ≤ 32)
    (hcm : compression = 0 ∨ compression = 1) (hx : ∀ l, exts = some l → (∀ e ∈ l, ServerExt e) ∧ (extensionBlock l).length < 2 ^ 16 + 2)
    (hne : (major, minor, s1, s2, compression) ≠ (3, 3, 0xcc, 0xa8, 0))
    (more : Bytes) (fs : List Bytes) (hc : Cuts fs (anyServerHello major minor random sessionId s1 s2 compression (extPart exts) ++ more)) (l : List Sym)
    (hrd : rd.stream = ofBytes (fs.flatMap (recordBytes 22 3 3)) ++ l) : (TlsClient.new m rd wr rng).1 = .err .IllegalParameter := by
  obtain ⟨cm, rfl⟩ : ∃ cm : CompressionMethod, compression = UInt8.ofNat (TlsEnum.code cm) := by
    rcases hcm with rfl | rfl
    · exact ⟨.null, rfl⟩
    · exact ⟨.DEFLATE, rfl⟩
  obtain ⟨x, hx1, hx2⟩ := extPart_exists exts hx
  have hread := read_serverHello major minor random sessionId s1 s2 cm x _ hr hs hx1 hx2
  generalize hsh : (⟨⟨major, minor⟩, ⟨random⟩, ⟨sessionId⟩, if s1 = 0xcc ∧ s2 = 0xa8 then .TLS_ECDHE_RSA_WITH_CHACHA20_POLY1305_SHA256 else .UnknownCipherSuite, cm, x⟩ : ServerHello) = sh at hread
  have hext : (extPart exts).length < 2 ^ 16 + 2 := by
    cases he : exts with
    | none => decide
    | some e => exact (hx e he).2
  have hF : Framed (anyServerHello major minor random sessionId s1 s2 (UInt8.ofNat (TlsEnum.code cm)) (extPart exts)) (.server_hello sh) := by
    refine ⟨2, _, ?_, rfl, ?_⟩
    · simp only [List.length_append, List.length_cons, List.length_nil]; omega
    · refine Handshake.read_of_arm (h := .server_hello sh) (n := ([major, minor] ++ random ++ (UInt8.ofNat sessionId.length :: sessionId) ++ [s1, s2] ++ [UInt8.ofNat (TlsEnum.code cm)] ++ extPart exts).length) ?_
      show (Handshake.readBody ServerHello .server_hello).run _ = _
      rw [Handshake.readBody, St.bind_of_ok hread]
      rfl
  refine (new_first m rd wr rng hfa hrng hF fs hc l hrd).1 sh rfl ?_
  rintro ⟨h1, h2, h3⟩
  subst hsh
  simp only [ProtocolVersion.mk.injEq] at h1 h2 h3
  apply hne
  rw [h1.1, h1.2, h3]
  split at h2
  · rename_i h; rw [h.1, h.2]; rfl
  · cases h2

/-- C08: in particular for each of the 65535 other suites. -/
theorem C08_hello_refused (m : Mode) (rd : Reader) (wr : Writer) (rng : Rng) (hfa : wr.faults = []) (hrng : 32 ≤ rng.bytes.length)
    (random sessionId : Bytes) (s1 s2 : UInt8) (exts : Option (List (Nat × Bytes))) (hr : random.length = 32) (hs : sessionId.length ≤ 32)
    (hx : ∀ l, exts = some l → (∀ e ∈ l, ServerExt e) ∧ (extensionBlock l).length < 2 ^ 16 + 2) (hne : ¬ (s1 = 0xcc ∧ s2 = 0xa8))
    (more : Bytes) (fs : List Bytes) (hc : Cuts fs (anyServerHello 3 3 random sessionId s1 s2 0 (extPart exts) ++ more)) (l : List Sym)
    (hrd : rd.stream = ofBytes (fs.flatMap (recordBytes 22 3 3)) ++ l) : (TlsClient.new m rd wr rng).1 = .err .IllegalParameter :=
  C59_hello_refused m rd wr rng hfa hrng 3 3 random sessionId s1 s2 0 exts hr hs (Or.inl rfl) hx
    (fun h => by simp only [Prod.mk.injEq, and_true, true_and] at h; exact hne h) more fs hc l hrd

/-- C60: any other well-formed handshake message in place of the ServerHello is refused with UnexpectedMessage. -/
theorem C60_not_a_hello (m : Mode) (rd : Reader) (wr : Writer) (rng : Rng) (hfa : wr.faults = []) (hrng : 32 ≤ rng.bytes.length)
    (h : Handshake) (ty : UInt8) (body : Bytes) (hl : body.length < 2 ^ 24) (hd : (TlsItem.read (α := Handshake)).run (handshakeBytes ty body) = (.ok h, [])) (hty : ty ≠ 2)
    (more : Bytes) (fs : List Bytes) (hc : Cuts fs (handshakeBytes ty body ++ more)) (l : List Sym)
    (hrd : rd.stream = ofBytes (fs.flatMap (recordBytes 22 3 3)) ++ l) : (TlsClient.new m rd wr rng).1 = .err .UnexpectedMessage := by
  refine (new_first m rd wr rng hfa hrng ⟨ty, body, hl, rfl, hd⟩ fs hc l hrd).2 ?_
  rintro sh rfl
  obtain ⟨_, n, b, e, _⟩ := Handshake.read_inv hd
  exact hty (List.cons.inj e).1

/-- The hypotheses of C59 are met, for instance by a ServerHello with version 3.1 in one record. -/
example : ∃ (rd : Reader) (fs : List Bytes), Cuts fs (anyServerHello 3 1 (List.replicate 32 7) [] 0xcc 0xa8 0 (extPart none) ++ []) ∧
    rd.stream = ofBytes (fs.flatMap (recordBytes 22 3 3)) ++ [] :=
  ⟨⟨[.data ((chunks 16384 (anyServerHello 3 1 (List.replicate 32 7) [] 0xcc 0xa8 0 (extPart none) ++ [])).flatMap (recordBytes 22 3 3))]⟩, _,
    cuts_exists _ (by decide), by rw [List.append_nil]; exact List.append_nil _⟩

/-- And those of C60 by a HelloRequest. -/
example : (TlsItem.read (α := Handshake)).run (handshakeBytes 0 []) = (.ok (.hello_request {}), []) := rfl

end Husk
