import Verif.Props.HandshakeSuccess
/-! C30 and C33 are false of the code: handshakes that succeed without authentication, and with most of the Finished message in clear. -/

namespace Husk

open Item Spec TlsReader TlsClient

/-! ### A run against a server is a completed handshake -/

theorem open_seal (key nonce ad plain : Bytes) (hk : key.length = 32) (hn : nonce.length = 12) (hl : plain.length ≤ 2 ^ 14) :
    Spec.Aead.openMsg key nonce ad (Spec.Aead.sealMsg key nonce ad plain) = some plain ∧ (Spec.Aead.sealMsg key nonce ad plain).length = plain.length + 16 := by
  obtain ⟨c, h1, h2, h3⟩ := C37_roundtrip .debug .debug key nonce plain ad hk hn (by omega)
  rw [C39_encrypt_is_rfc8439 .debug key nonce plain ad hk hn (by omega)] at h1
  cases h1
  rw [C39_decrypt_is_rfc8439 .debug key nonce _ ad hk hn (by omega)] at h3
  refine ⟨?_, h2⟩
  cases ho : Spec.Aead.openMsg key nonce ad (Spec.Aead.sealMsg key nonce ad plain) with
  | none => rw [ho] at h3; cases h3
  | some p => rw [ho] at h3; rw [Res.ok.inj h3]

theorem protectedStream_of (key iv : Bytes) (hk : key.length = 32) (hi : iv.length = 12) (fs : List Bytes) (hf : Fits fs) (k : Nat) (hn : k + fs.length < 2 ^ 64) :
    ProtectedStream key iv 22 k (fs.map fun f => (3, 3, f)) (protectedRecords key iv 22 k fs) := by
  induction fs generalizing k with
  | nil => exact .nil
  | cons f fs ih =>
    simp only [List.length_cons] at hn
    have hm : k % 2 ^ 64 = k := Nat.mod_eq_of_lt (by omega)
    obtain ⟨h1, h2⟩ := open_seal key (recordNonce iv k) (recordAad k 22 3 3 f.length) f hk (by simp [recordNonce, hi]) (hf f (by simp)).2
    refine .cons ?_ ?_ (ih (fun f h => hf f (List.mem_cons_of_mem _ h)) (k + 1) (by omega))
    · rw [h2]; have := (hf f (by simp)).2; omega
    · rw [hm]; exact h1

/-- The handshake with a server that follows the protocol, except that it may put the first bytes `pre` of its Finished in front of ChangeCipherSpec, in clear. -/
theorem run_completed (m : Mode) (rd : Reader) (wr : Writer) (rng : Rng) (hfa : wr.faults = []) {random block rest : Bytes} (D : Draws rng.bytes random block rest)
    {V : ServerValues} (hV : V.Conforms) {S : Session} (hS : S = V.session random (clientPoint block)) (pre post : Bytes) (hpp : pre ++ post = finishedBytes S.serverVerify)
    (hpost : post ≠ []) (fs1 fs2 : List Bytes) (h1 : Cuts fs1 (S.flight ++ pre)) (h2 : Cuts fs2 post) (l : List Sym) (hrd : rd.stream = ofBytes (serverWire S fs1 fs2) ++ l) :
    ∃ c, TlsClient.new m rd wr rng = (.ok (), c) ∧
      Completed m rd wr rng c S (fs1.map fun f => (3, 3, f)) (fs2.map fun f => (3, 3, f)) 3 3 (protectedRecords S.keys.serverKey S.keys.serverIv 22 0 fs2) pre [] := by
  have hl := serverVerify_length D hV hS
  obtain ⟨more, hm, hk⟩ := hV.keys D m
  have hrl := D.randomLength
  obtain ⟨c, w, hr⟩ := server_run m rd wr rng hfa D hV S.serverVerify pre post hl hpp hpost fs1 fs2 (by rw [← hS]; exact h1) h2 l (by rw [← hS]; exact hrd)
  rw [← hS] at hr
  obtain ⟨k1, k2, k3, k4, _⟩ := hr.lengths
  have h := hr.result
  rw [if_pos rfl] at h
  have hlen : pre.length + post.length = 16 := by
    have := congrArg List.length hpp
    simp [finishedBytes, handshakeBytes, hl] at this
    omega
  have hpos := List.length_pos_iff.mpr hpost
  generalize clientPoint block = P at hS hk
  have e1 : S.random = random := by rw [hS]; rfl
  have e2 : S.point = Spec.P256.encode P := by rw [hS]; rfl
  have e3 : S.pms = Spec.P256.xBytes (V.secret • P) := by rw [hS]; rfl
  have e4 : S.keyExchange = V.keyExchange := by rw [hS]; rfl
  have e5 : S.serverRandom = V.random := by rw [hS]; rfl
  have e6 : S.sessionId = V.sessionId := by rw [hS]; rfl
  have e7 : S.junk = [] := by rw [hS]; rfl
  refine ⟨c, (new_of_handshake m rd wr rng (.ok ()) c (by simp)).mpr h, ?_⟩
  constructor
  · rw [hr.stream, hrd, List.flatMap_map]; rfl
  · exact protectedStream_of _ _ k2 k4 fs2 h2.1 0 (by have := h2.2.1; omega)
  · rw [List.flatMap_map, ← h1.2.2]; simp
  · rw [List.flatMap_map]
    have : (fs2.flatMap fun a => a) = post := by rw [← h2.2.2]; simp
    rw [this, hpp, List.append_nil]
  · omega
  · exact ⟨more, by rw [e1]; exact hm, by rw [e2, e3, e4, hr.rng]; exact hk⟩
  · refine ⟨by rw [e1]; exact hrl, by rw [e5]; exact hV.random, by rw [e6]; exact hV.sessionId, by rw [e2]; exact Ecdhe.encode_length _, ?_, hl⟩
    rw [e3]
    cases V.secret • P <;> simp [Spec.P256.xBytes]
  · intro _; exact e7
  · rw [e4]; exact keyExchange_body hk
  · exact hr.wire
  · rw [hr.buffer]
  · refine ⟨hr.decryptor, hr.readerIv, ?_, hr.encryptor, hr.writerIv, hr.writeCount, hr.buf, ⟨k1, k2, k3, k4⟩⟩
    rw [hr.readCount, UInt64.toNat_ofNat', List.length_map]
  · exact fun _ => hr.faults
  · have e8 : S.ext = extPart V.exts := by rw [hS]; rfl
    have e9 : S.certs = V.certs := by rw [hS]; rfl
    rw [e4, e5, e6, e7, e8, e9, List.append_nil]
    have hext : (extPart V.exts).length < 2 ^ 16 + 2 := by
      cases he : V.exts with
      | none => decide
      | some e => exact (hV.exts e he).2
    have h1 := hV.random
    have h2 := hV.sessionId
    have h3 := hV.signature
    refine ⟨?_, Nat.lt_add_right 4 hV.certsLen, ?_⟩
    · simp only [serverHelloBytes, handshakeBytes, List.length_append, List.length_cons, List.length_nil, beBytes_length]
      omega
    · simp only [ServerValues.keyExchange, List.length_append, List.length_cons, List.length_nil, beBytes_length, Ecdhe.encode_length]
      omega
  · intro r hr
    obtain ⟨f, hf, rfl⟩ := List.mem_map.mp hr
    exact (h1.1 f hf).2
  · intro r hr
    obtain ⟨f, hf, rfl⟩ := List.mem_map.mp hr
    exact (h2.1 f hf).2
  · obtain ⟨x, hx1, hx2⟩ := extPart_exists V.exts hV.exts
    have e8 : S.ext = extBytes x := by rw [hS, extBytes, hx2]; rfl
    rw [e8]
    exact extensions_of_wf hx1
  · have e9 : S.certs = V.certs := by rw [hS]; rfl
    rw [e9]
    exact hV.certs
  · intro r hr
    rw [← List.map_append] at hr
    obtain ⟨f, hf, rfl⟩ := List.mem_map.mp hr
    rcases List.mem_append.mp hf with h | h
    · exact (h1.1 f h).1
    · exact (h2.1 f h).1
  · intro _
    have := h1.2.1
    have := h2.2.1
    rw [List.length_map, List.length_map]
    omega
  · obtain ⟨rs, r, hr⟩ : ∃ rs r, fs2 = rs ++ [r] := by
      rcases List.eq_nil_or_concat fs2 with h | ⟨rs, r, h⟩
      · have := h2.2.2
        rw [h] at this
        exact absurd this.symm hpost
      · exact ⟨rs, r, by rw [h]; simp⟩
    refine ⟨rs.map fun f => (3, 3, f), (3, 3, r), by rw [hr, List.map_append]; rfl, ?_⟩
    have hne := List.length_pos_iff.mpr (h2.1 r (by rw [hr]; simp)).1
    have hl2 := congrArg List.length h2.2.2
    rw [hr] at hl2
    rw [List.flatMap_map]
    have e : (rs.flatMap fun a => a) = rs.flatten := by simp
    rw [e]
    simp only [List.flatten_append, List.flatten_cons, List.flatten_nil, List.append_nil, List.length_append] at hl2 ⊢
    omega

/-! ### C30 -/

/-- C30, the full statement, for any notion `valid` of a server proving who it is (it may depend on the client's random and on everything the server sends, its
certificates and its signature in particular). -/
def Authenticates (m : Mode) (valid : Bytes → ServerValues → Prop) : Prop :=
  ∀ (rd : Reader) (wr : Writer) (rng : Rng) (random block rest : Bytes) (V : ServerValues) (S : Session) (fs1 fs2 : List Bytes) (l : List Sym),
    Draws rng.bytes random block rest → V.Conforms → S = V.session random (clientPoint block) → Reply S fs1 fs2 l rd →
    (TlsClient.new m rd wr rng).1 = .ok () → valid random V

/-- C30 is false of the code: no such notion is enforced unless it holds of everything, because the certificates and the signature are not looked at. -/
theorem C30_not_authenticated (m : Mode) (valid : Bytes → ServerValues → Prop) (random : Bytes) (hr : random.length = 32) (V : ServerValues) (hV : V.Conforms) (hne : ¬ valid random V) :
    ¬ Authenticates m valid := by
  intro h
  obtain ⟨block, hb, hlt⟩ : ∃ block : Bytes, block.length = 32 ∧ leNat block < P256.p := ⟨5 :: List.replicate 31 0, by simp, by decide⟩
  have D : Draws (random ++ block) random block [] := ⟨⟨[], by simp, by simp⟩, hr, hb, hlt⟩
  obtain ⟨S, hS⟩ : ∃ S, S = V.session random (clientPoint block) := ⟨_, rfl⟩
  have hrep : Reply S (chunks 16384 S.flight) (chunks 16384 (finishedBytes S.serverVerify)) []
      ⟨[.data (serverWire S (chunks 16384 S.flight) (chunks 16384 (finishedBytes S.serverVerify)))]⟩ :=
    ⟨cuts_exists _ (by have := flight_length hV hS; omega), cuts_exists _ (by simp [finishedBytes, handshakeBytes, serverVerify_length D hV hS]),
      by rw [List.append_nil]; exact List.append_nil _⟩
  obtain ⟨c, hc, _⟩ := C29_completes_partial m _ {} ⟨random ++ block⟩ rfl random block [] D V hV S hS _ _ _ hrep
  exact hne (h _ _ _ _ _ _ _ _ _ _ _ D hV hS hrep (by rw [hc]))

/-- In particular: a server with no certificate at all and an empty signature is accepted. -/
theorem C30_no_certificate (m : Mode) : ¬ Authenticates m fun _ V => V.certs ≠ [] ∧ V.signature ≠ [] :=
  C30_not_authenticated m _ (List.replicate 32 0) (by simp) { random := List.replicate 32 7, secret := 1 }
    ⟨by simp, by simp, by simp, by simp, by decide, by rw [one_nsmul]; exact Spec.P256.G_ne_zero, by simp⟩ (fun h => h.1 rfl)

/-- What is checked (partial C30): the server knows the session's keys, as its Finished value is right and its record opens under the server's key (C28). It
need not be the one the client wants to talk to. -/
theorem C30_key_confirmation_partial (m : Mode) (rd : Reader) (wr : Writer) (rng : Rng) (c : TlsClient) (h : TlsClient.new m rd wr rng = (.ok (), c)) :
    ∃ S clear prot a b protWire pre post, Completed m rd wr rng c S clear prot a b protWire pre post ∧ prot ≠ [] := by
  obtain ⟨S, clear, prot, a, b, w, pre, post, hC⟩ := C27_flight_partial m rd wr rng c h
  refine ⟨S, clear, prot, a, b, w, pre, post, hC, ?_⟩
  rintro rfl
  have h1 := congrArg List.length hC.finished
  have h2 := hC.short
  have h3 := hC.lengths.2.2.2.2.2
  simp [finishedBytes, handshakeBytes, h3] at h1
  omega

/-! ### C33 -/

/-- C33, the full statement: no byte of the Finished message comes before ChangeCipherSpec (in every way to read the stream as a completed handshake). -/
def FinishedProtected (m : Mode) : Prop :=
  ∀ rd wr rng c, TlsClient.new m rd wr rng = (.ok (), c) → ∀ S clear prot a b protWire pre post, Completed m rd wr rng c S clear prot a b protWire pre post → pre = []

/-- C33 is false of the code: 15 of the 16 bytes of the server's Finished can come in clear, before ChangeCipherSpec. -/
theorem C33_unprotected (m : Mode) : ∃ rd wr rng c S clear prot a b protWire pre post, TlsClient.new m rd wr rng = (.ok (), c) ∧
    Completed m rd wr rng c S clear prot a b protWire pre post ∧ pre.length = 15 := by
  obtain ⟨random, block, hr, hb, hlt⟩ : ∃ random block : Bytes, random.length = 32 ∧ block.length = 32 ∧ leNat block < P256.p :=
    ⟨List.replicate 32 0, 5 :: List.replicate 31 0, by simp, by simp, by decide⟩
  have D : Draws (random ++ block) random block [] := ⟨⟨[], by simp, by simp⟩, hr, hb, hlt⟩
  have hV : ServerValues.Conforms { random := List.replicate 32 7, secret := 1 } :=
    ⟨by simp, by simp, by simp, by simp, by decide, by rw [one_nsmul]; exact Spec.P256.G_ne_zero, by simp⟩
  generalize ({ random := List.replicate 32 7, secret := 1 } : ServerValues) = V at hV
  obtain ⟨S, hS⟩ : ∃ S, S = V.session random (clientPoint block) := ⟨_, rfl⟩
  have hl : (finishedBytes S.serverVerify).length = 16 := by simp [finishedBytes, handshakeBytes, serverVerify_length D hV hS]
  have hf := flight_length hV hS
  obtain ⟨c, h1, h2⟩ := run_completed m ⟨[.data (serverWire S (chunks 16384 (S.flight ++ (finishedBytes S.serverVerify).take 15)) (chunks 16384 ((finishedBytes S.serverVerify).drop 15)))]⟩
    {} ⟨random ++ block⟩ rfl D hV hS ((finishedBytes S.serverVerify).take 15) ((finishedBytes S.serverVerify).drop 15) (List.take_append_drop _ _)
    (by intro h; have := congrArg List.length h; rw [List.length_drop, hl] at this; cases this)
    _ _ (cuts_exists _ (by rw [List.length_append, List.length_take, hl]; omega)) (cuts_exists _ (by rw [List.length_drop, hl]; decide)) [] (by rw [List.append_nil]; exact List.append_nil _)
  exact ⟨_, _, _, c, S, _, _, _, _, _, _, _, h1, h2, by rw [List.length_take, hl]; rfl⟩

theorem C33_not_protected (m : Mode) : ¬ FinishedProtected m := by
  intro h
  obtain ⟨rd, wr, rng, c, S, clear, prot, a, b, w, pre, post, h1, h2, h3⟩ := C33_unprotected m
  have := h rd wr rng c h1 _ _ _ _ _ _ _ _ h2
  rw [this] at h3
  cases h3

/-- C33, partial: at least the last byte of the Finished message is protected; and if the messages in clear end with ServerHelloDone, all of it is. Missing:
bytes in clear between ServerHelloDone and ChangeCipherSpec are not refused. -/
theorem C33_last_byte_partial (m : Mode) (rd : Reader) (wr : Writer) (rng : Rng) (c : TlsClient) (h : TlsClient.new m rd wr rng = (.ok (), c)) :
    ∃ S clear prot a b protWire pre post, Completed m rd wr rng c S clear prot a b protWire pre post ∧ pre.length ≤ 15 ∧
      (clear.flatMap (fun r => r.2.2) = S.flight → prot.flatMap (fun r => r.2.2) = finishedBytes S.serverVerify ++ post) := by
  obtain ⟨S, clear, prot, a, b, w, pre, post, hC⟩ := C27_flight_partial m rd wr rng c h
  refine ⟨S, clear, prot, a, b, w, pre, post, hC, by have := hC.short; omega, fun he => ?_⟩
  have h1 := hC.messages
  rw [he] at h1
  have : pre = [] := by
    have := congrArg List.length h1
    rw [List.length_append] at this
    exact List.length_eq_zero_iff.mp (by omega)
  have h2 := hC.finished
  rw [this] at h2
  exact h2

end Husk
