import Verif.Proofs.TraceSuccess
/-! # C112: what a whole handshake, and a whole session, shows through timing and caches

The observations are those of `Verif/Base/Trace`, with the calls on the transport as in C104. Two handshakes are compared in which the server said the same in clear (so both clients were given the same
public key), and its Finished came in records of the same lengths, in pieces of the same lengths. The clients' randoms and secrets, hence all keys, differ.

The full claim is about both build modes. It does not hold of debug builds: the assertions of `reduce_once` and `sub` in the field arithmetic branch on
secret data (`C88_debug_leaks`), so that whole handshakes can be told apart (`C112_debug_leaks`, `C112_only_release`); the theorems are about release builds. What is missing from the model's observations is listed in `Model/TraceHandshake`. -/

namespace Husk

open TSt Spec TlsReader TlsClient

/-! ### The theorems -/

/-- The computation with observations has the result of the model: `newT` is the handshake, and when that succeeds, it is `new`. -/
theorem C112_same_result (m : Mode) (rd : Reader) (wr : Writer) (rng : Rng) :
    (newT m rd wr rng).2 = (handshake m).run { reader := TlsReader.new rd, writer := TlsWriter.new wr, rng } ∧
      ∀ c, TlsClient.new m rd wr rng = (.ok (), c) ↔ (newT m rd wr rng).2 = (.ok (), c) := by
  have e : (newT m rd wr rng).2 = (handshake m).run (fresh rd wr rng) := handshakeT_follows m rd wr rng
  refine ⟨e, fun c => ?_⟩
  rw [e, new_of_handshake _ _ _ _ _ _ (by simp)]

/-- C112 (release builds): two handshakes that succeed, with servers that send the same in clear and Finished in records of the same lengths, delivered in pieces of the same lengths; the writes of both
clients meet with the same fate, and both draw as many random bytes. The clients' randoms and secrets, the premaster secrets, all keys and both Finished messages differ; the observations do not. -/
theorem C112_handshake_constant_time_partial {rd rd' : Reader} {wr wr' : Writer} {rng rng' : Rng} {c c' : TlsClient} {S S' : Session} {clear prot prot' : List (UInt8 × UInt8 × Bytes)} {a b : UInt8}
    {pw pw' pre pre' post post' : Bytes} (h : TlsClient.new .release rd wr rng = (.ok (), c)) (h' : TlsClient.new .release rd' wr' rng' = (.ok (), c'))
    (hC : Completed .release rd wr rng c S clear prot a b pw pre post) (hC' : Completed .release rd' wr' rng' c' S' clear prot' a b pw' pre' post')
    (hpub : prot.map publicPart = prot'.map publicPart) (hr : Reader.Twin rd rd') (hw : Writer.Twin wr wr')
    (hn : rng.bytes.length - c.rng.bytes.length = rng'.bytes.length - c'.rng.bytes.length) :
    (newT .release rd wr rng).1 = (newT .release rd' wr' rng').1 ∧ Reader.Twin c.reader.reader c'.reader.reader ∧ Writer.Twin c.writer.writer c'.writer.writer := by
  obtain ⟨cr, rest, w1, f, pub, s1, s2, s3, s4, t1, H⟩ := steps_of_new h
  obtain ⟨cr', rest', w1', f', pub', s1', s2', s3', s4', t1', H'⟩ := steps_of_new h'
  obtain ⟨clear0, prot0, a0, b0, w, post0, v0, v1, v2, v3, v4, hs⟩ := H.streams
  obtain ⟨clear0', prot0', a0', b0', w', post0', v0', v1', v2', v3', v4', hs'⟩ := H'.streams
  obtain ⟨x1, -, x2⟩ := hs.of_completed hC
  obtain ⟨y1, -, y2⟩ := hs'.of_completed hC'
  have e0' : rd'.stream = ofBytes v0 ++ t1'.reader.stream := by rw [x1, ← y1]; exact hs'.at0
  obtain ⟨B1, T1, n1⟩ := hello_both H H' hw
  obtain ⟨B2, L4, e4, hm⟩ := flight_both H H' hr hn hs.at0 hs.at1 hs.at2 hs.at3 hs.at4 e0'
  have hb : BeforeKeys { fresh rd wr rng with rng := c.rng, writer := w1, reader := s4 } { fresh rd' wr' rng' with rng := c'.rng, writer := w1', reader := s4' } :=
    ⟨⟨H.encryptor, H'.encryptor, H.writerIv, H'.writerIv, n1, T1⟩, H.flight.same.2, H'.flight.same.2⟩
  have hpms := (C53_shape .release _ _ _ _ _ H.flight.keys).2.trans (C53_shape .release _ _ _ _ _ H'.flight.keys).2.symm
  have A := second_flight_alike .release H.len H'.len H.fit H'.fit hpms (by rw [hm]) hb
  have r1 := (C105_same_result .release H.len H.fit hb.writer.key hb.writer.iv hb.iv [] [] (helloMessage cr) ⟨[]⟩).1.trans H.sent
  have r1' := (C105_same_result .release H'.len H'.fit hb.writer.key' hb.writer.iv' hb.iv' [] [] (helloMessage cr) ⟨[]⟩).1.trans H'.sent
  obtain ⟨B3, T3⟩ := BothOk.of_alike A r1 r1'
  obtain ⟨B4, T4⟩ := finished_both H H' L4 hs hs' e4 (x2.trans (hpub.trans y2.symm)) hm
  have B : BothOk (handshakeT .release) (handshakeT .release) (fresh rd wr rng) (fresh rd' wr' rng') () () c c' := B1.andThen (B2.andThen (B3.andThen B4))
  obtain ⟨u, g1, g2⟩ := B
  refine ⟨?_, T4, T3⟩
  have g1' := congrArg Prod.fst g1
  have g2' := congrArg Prod.fst g2
  exact g1'.trans g2'.symm

/-- C112, the whole session (release builds): the handshake, and then any calls, when nothing follows the Finished messages in their records and the servers then send application data in records of the
same lengths. -/
theorem C112_session_partial {rd rd' : Reader} {wr wr' : Writer} {rng rng' : Rng} {c c' : TlsClient} {S S' : Session} {clear prot prot' : List (UInt8 × UInt8 × Bytes)} {a b : UInt8}
    {pw pw' pre pre' : Bytes} (h : TlsClient.new .release rd wr rng = (.ok (), c)) (h' : TlsClient.new .release rd' wr' rng' = (.ok (), c'))
    (hC : Completed .release rd wr rng c S clear prot a b pw pre []) (hC' : Completed .release rd' wr' rng' c' S' clear prot' a b pw' pre' [])
    (hpub : prot.map publicPart = prot'.map publicPart) (hr : Reader.Twin rd rd') (hw : Writer.Twin wr wr')
    (hn : rng.bytes.length - c.rng.bytes.length = rng'.bytes.length - c'.rng.bytes.length) (rs rs' : List (UInt8 × UInt8 × Bytes)) (w w' : Bytes)
    (hs : ProtectedStream S.keys.serverKey S.keys.serverIv 23 prot.length rs w) (hs' : ProtectedStream S'.keys.serverKey S'.keys.serverIv 23 prot.length rs' w')
    (hrs : rs.map publicPart = rs'.map publicPart) (hfit : ∀ r ∈ rs, r.2.2.length ≤ 2 ^ 14) (hcnt : prot.length + rs.length < 2 ^ 64) (hst : c.reader.reader.stream = ofBytes w)
    (hst' : c'.reader.reader.stream = ofBytes w') (calls calls' : List Call) (hcalls : SameCalls calls calls') :
    (newT .release rd wr rng).1 = (newT .release rd' wr' rng').1 ∧
      (runCallsT .release S.keys.clientKey S.keys.serverKey calls c).1 = (runCallsT .release S'.keys.clientKey S'.keys.serverKey calls' c').1 ∧
      SameResults (runCallsT .release S.keys.clientKey S.keys.serverKey calls c).2.1 (runCallsT .release S'.keys.clientKey S'.keys.serverKey calls' c').2.1 := by
  obtain ⟨h1, h2, h3⟩ := C112_handshake_constant_time_partial h h' hC hC' hpub hr hw hn
  have hlen : prot.length = prot'.length := by simpa using congrArg List.length hpub
  exact ⟨h1, C104_calls_constant_time calls calls' hcalls (C104_established hC hC' hlen rs rs' w w' hs hs' hrs hfit hcnt hst hst' h2 h3)⟩

/-! ### A case -/

theorem protectedRecord_length (key iv : Bytes) (k : Nat) (ty : UInt8) (f : Bytes) : (protectedRecord key iv k ty f).length = f.length + 21 := by
  have hlen : ∀ k n a p : Bytes, (Spec.Aead.sealMsg k n a p).length = p.length + 16 := fun k n a p => by rw [← Spec.Blocks.ofKey_sealMsg, Spec.Blocks.sealMsg_length]
  simp only [protectedRecord, recordBytes, List.length_append, List.length_cons, List.length_nil, beBytes_length, hlen]
  omega

theorem finishedBytes_length {v : Bytes} (h : v.length = 12) : (finishedBytes v).length = 16 := by
  simp only [finishedBytes, handshakeBytes, List.length_append, List.length_cons, beBytes_length, h]

theorem cuts_one {b : Bytes} (hb : b.length = 16) : Cuts [b] b := by
  refine ⟨?_, by simp, by simp⟩
  intro f hf
  rw [List.mem_singleton.mp hf]
  refine ⟨?_, ?_⟩
  · intro e
    rw [e] at hb
    cases hb
  · rw [hb]
    decide

/-- A run with the server's whole side in one piece. -/
theorem whole_run (m : Mode) {V : ServerValues} (hV : V.Conforms) {random block : Bytes} (h1 : random.length = 32) (h3 : block.length = 32) (h5 : leNat block < P256.p) {S : Session}
    (hS : S = V.session random (clientPoint block)) {fs : List Bytes} (hfs : Cuts fs S.flight) {rd : Reader} (hrd : rd = ⟨[.data (serverWire S fs [finishedBytes S.serverVerify])]⟩) :
    ∃ c, TlsClient.new m rd {} ⟨random ++ block⟩ = (.ok (), c) ∧ c.rng.bytes = [] ∧
      ∃ pw, Completed m rd {} ⟨random ++ block⟩ c S (fs.map fun f => (3, 3, f)) [(3, 3, finishedBytes S.serverVerify)] 3 3 pw [] [] := by
  have D : Draws (random ++ block) random block [] := ⟨⟨[], by simp, by simp⟩, h1, h3, h5⟩
  have hl := finishedBytes_length (serverVerify_length D hV hS)
  have hne : serverWire S fs [finishedBytes S.serverVerify] ≠ [] := by simp [serverWire, recordBytes]
  have hst : rd.stream = ofBytes (serverWire S fs [finishedBytes S.serverVerify]) ++ [] := by
    rw [hrd, Reader.stream_data _ hne]
    rfl
  obtain ⟨c, r1, r2⟩ := run_completed m rd {} ⟨random ++ block⟩ rfl D hV hS [] (finishedBytes S.serverVerify) rfl
    (by intro h; rw [h] at hl; cases hl) fs [finishedBytes S.serverVerify] (by rw [List.append_nil]; exact hfs) (cuts_one hl) [] hst
  refine ⟨c, r1, ?_, _, r2⟩
  obtain ⟨rest, e, K⟩ := r2.random
  obtain ⟨more, e', K'⟩ := hV.keys D m
  have e1 : S.random = random := by rw [hS]; rfl
  have e2 : S.keyExchange = V.keyExchange := by rw [hS]; rfl
  have e3 : rest = more := by
    rw [e1] at e
    exact List.append_cancel_left (e.symm.trans e')
  rw [e2, e3, K'] at K
  rw [← (Prod.mk.inj K).2]

/-- Any two clients that meet the same server (with the same key and random), whose messages come cut up in the same way: whatever they draw, as long as the first candidate for the secret is below p,
the handshakes succeed and cannot be told apart. -/
theorem C112_same_server_partial {V : ServerValues} (hV : V.Conforms) {random random' block block' : Bytes} (h1 : random.length = 32) (h2 : random'.length = 32) (h3 : block.length = 32)
    (h4 : block'.length = 32) (h5 : leNat block < P256.p) (h6 : leNat block' < P256.p) {S S' : Session} (hS : S = V.session random (clientPoint block))
    (hS' : S' = V.session random' (clientPoint block')) {fs : List Bytes} (hfs : Cuts fs S.flight) {rd rd' : Reader}
    (hrd : rd = ⟨[.data (serverWire S fs [finishedBytes S.serverVerify])]⟩) (hrd' : rd' = ⟨[.data (serverWire S' fs [finishedBytes S'.serverVerify])]⟩) :
    (newT .release rd {} ⟨random ++ block⟩).2.1 = .ok () ∧ (newT .release rd' {} ⟨random' ++ block'⟩).2.1 = .ok () ∧
      (newT .release rd {} ⟨random ++ block⟩).1 = (newT .release rd' {} ⟨random' ++ block'⟩).1 := by
  have hl := finishedBytes_length (serverVerify_length (⟨⟨[], by simp, by simp⟩, h1, h3, h5⟩ : Draws (random ++ block) random block []) hV hS)
  have hl' := finishedBytes_length (serverVerify_length (⟨⟨[], by simp, by simp⟩, h2, h4, h6⟩ : Draws (random' ++ block') random' block' []) hV hS')
  have hff : S'.flight = S.flight := by
    have : ∀ r P r' P', (V.session r P).flight = (V.session r' P').flight := fun _ _ _ _ => rfl
    rw [hS, hS', this]
  obtain ⟨c, r1, n1, pw, C⟩ := whole_run .release hV h1 h3 h5 hS hfs hrd
  obtain ⟨c', r1', n1', pw', C'⟩ := whole_run .release hV h2 h4 h6 hS' (by rw [hff]; exact hfs) hrd'
  have ht : Reader.Twin rd rd' := by
    have : (serverWire S fs [finishedBytes S.serverVerify]).length = (serverWire S' fs [finishedBytes S'.serverVerify]).length := by
      simp only [serverWire, protectedRecords, List.length_append, protectedRecord_length, hl, hl']
    rw [hrd, hrd']
    simp only [Reader.Twin, List.map_cons, List.map_nil, Ev.shape, this]
  clear hrd hrd' hfs hS hS' hff
  have hp : [((3, 3, finishedBytes S.serverVerify) : UInt8 × UInt8 × Bytes)].map publicPart = [((3, 3, finishedBytes S'.serverVerify) : UInt8 × UInt8 × Bytes)].map publicPart := by
    generalize finishedBytes S.serverVerify = x at hl
    generalize finishedBytes S'.serverVerify = x' at hl'
    simp only [List.map_cons, List.map_nil, publicPart, hl, hl']
  have hn : (random ++ block).length - c.rng.bytes.length = (random' ++ block').length - c'.rng.bytes.length := by
    rw [n1, n1', List.length_append, List.length_append, h1, h2, h3, h4]
  generalize random ++ block = r at *
  generalize random' ++ block' = r' at *
  exact ⟨congrArg Prod.fst (((C112_same_result _ _ _ _).2 c).mp r1), congrArg Prod.fst (((C112_same_result _ _ _ _).2 c').mp r1'),
    (C112_handshake_constant_time_partial r1 r1' C C' hp ht ⟨rfl, rfl⟩ hn).1⟩

/-- The hypotheses of C112 are met by a server with a small secret and two clients that draw different bytes. -/
example : ∃ (V : ServerValues) (random random' block block' : Bytes) (fs : List Bytes), V.Conforms ∧ random.length = 32 ∧ random'.length = 32 ∧ block.length = 32 ∧ block'.length = 32 ∧
    leNat block < P256.p ∧ leNat block' < P256.p ∧ random ≠ random' ∧ block ≠ block' ∧ Cuts fs (V.session random (clientPoint block)).flight := by
  have hV : ServerValues.Conforms { random := List.replicate 32 7, secret := 1 } :=
    ⟨by simp, by simp, by simp, by simp, by decide, by rw [one_nsmul]; exact Spec.P256.G_ne_zero, by simp⟩
  refine ⟨_, List.replicate 32 1, List.replicate 32 2, List.replicate 32 3, List.replicate 32 4, _, hV, by decide, by decide, by decide, by decide, by decide,
    by decide, by decide, by decide, cuts_exists _ ?_⟩
  have := flight_length hV (S := ServerValues.session _ (List.replicate 32 1) (clientPoint (List.replicate 32 3))) rfl
  omega

/-! ### Debug builds -/

namespace TSt

theorem differ_left {x : TSt σ α} {y : TSt τ β} {s : σ} {t : τ} {f : α → TSt σ γ} {g : β → TSt τ δ} (h : diffB (x.run s).1 (y.run t).1 = true) :
    diffB ((x >>= f).run s).1 ((y >>= g).run t).1 = true := by
  have one : ∀ {σ α γ : Type} (x : TSt σ α) (f : α → TSt σ γ) (s : σ), ∃ u, ((x >>= f).run s).1 = (x.run s).1 ++ u := by
    intro σ α γ x f s
    rw [bind_run]
    rcases x.run s with ⟨u, r, s1⟩
    cases r with
    | ok a => exact ⟨_, rfl⟩
    | err k => exact ⟨[], (List.append_nil _).symm⟩
    | panic => exact ⟨[], (List.append_nil _).symm⟩
    | diverge => exact ⟨[], (List.append_nil _).symm⟩
  obtain ⟨u, hu⟩ := one x f s
  obtain ⟨v, hv⟩ := one y g t
  rw [hu, hv]
  exact diffB_append _ _ _ _ h

theorem differ_right {x : TSt σ α} {y : TSt τ β} {s s1 : σ} {t t1 : τ} {a : α} {b : β} {f : α → TSt σ γ} {g : β → TSt τ δ} (h : BothOk x y s t a b s1 t1)
    (hf : diffB ((f a).run s1).1 ((g b).run t1).1 = true) : diffB ((x >>= f).run s).1 ((y >>= g).run t).1 = true := by
  obtain ⟨u, h1, h2⟩ := h
  rw [bind_of_ok h1, bind_of_ok h2]
  exact diffB_prefix _ _ _ hf

end TSt

/-- In debug builds the secrets 1 and 2 can always be told apart: whatever the server sends in clear, and whatever the rest of the two handshakes is. -/
theorem C112_debug_leaks {rd rd' : Reader} {wr wr' : Writer} {rng rng' : Rng} {c c' : TlsClient} {S S' : Session} {clear prot prot' : List (UInt8 × UInt8 × Bytes)} {a b : UInt8}
    {pw pw' pre pre' post post' : Bytes} (h : TlsClient.new .debug rd wr rng = (.ok (), c)) (h' : TlsClient.new .debug rd' wr' rng' = (.ok (), c'))
    (hC : Completed .debug rd wr rng c S clear prot a b pw pre post) (hC' : Completed .debug rd' wr' rng' c' S' clear prot' a b pw' pre' post') (hr : Reader.Twin rd rd') (hw : Writer.Twin wr wr')
    {random random' more more' : Bytes} (hl : random.length = 32) (hl' : random'.length = 32) (hg : rng.bytes = random ++ (firstIs 1 more).bytes)
    (hg' : rng'.bytes = random' ++ (firstIs 2 more').bytes) : (newT .debug rd wr rng).1 ≠ (newT .debug rd' wr' rng').1 := by
  obtain ⟨cr, rest, w1, f, pub, s1, s2, s3, s4, t1, H⟩ := steps_of_new h
  obtain ⟨cr', rest', w1', f', pub', s1', s2', s3', s4', t1', H'⟩ := steps_of_new h'
  obtain ⟨clear0, prot0, a0, b0, w, post0, v0, v1, v2, v3, v4, hs⟩ := H.streams
  obtain ⟨clear0', prot0', a0', b0', w', post0', v0', v1', v2', v3', v4', hs'⟩ := H'.streams
  obtain ⟨x1, -, -⟩ := hs.of_completed hC
  obtain ⟨y1, -, -⟩ := hs'.of_completed hC'
  have e0' : rd'.stream = ofBytes v0 ++ t1'.reader.stream := by rw [x1, ← y1]; exact hs'.at0
  obtain ⟨B1, -, -⟩ := hello_both H H' hw
  obtain ⟨⟨B2, B3, B4⟩, q1, -, q3, -⟩ := front_both H H' hr hs.at0 hs.at1 hs.at2 hs.at3 e0'
  have r1 : (⟨rest⟩ : Rng) = firstIs 1 more := by
    have := (List.append_inj (H.random.symm.trans hg) (H.len.trans hl.symm)).2
    rw [this]
  have r1' : (⟨rest'⟩ : Rng) = firstIs 2 more' := by
    have := (List.append_inj (H'.random.symm.trans hg') (H'.len.trans hl'.symm)).2
    rw [this]
  have hck : ∀ g : ServerHello, (g.serverVersion = ⟨3, 3⟩ ∧ g.cipherSuite = .TLS_ECDHE_RSA_WITH_CHACHA20_POLY1305_SHA256 ∧ g.compressionMethod = .null) → (checkServerHelloT g).res = .ok () := by
    intro g hg
    show checkServerHello g = _
    rw [checkServerHello_eq, if_pos hg]
  have K := H.flight.keys
  have D : diffB (Ecdhe.computeKeysT .debug f.ske.data ⟨rest⟩).trace (Ecdhe.computeKeysT .debug f'.ske.data ⟨rest'⟩).trace = true := by
    rw [q3, r1, r1']
    exact computeKeys_differs _ _ _ _ _ (by rw [← r1]; exact K)
  refine diffB_ne _ _ ?_
  refine differ_right B1 (differ_left ?_)
  refine differ_right B2 ?_
  refine differ_right (BothOk.ofTr (hck _ H.flight.check) (hck _ H'.flight.check) (by rw [q1]) _ _) ?_
  exact differ_right B3 (differ_right B4 (differ_left D))

/-- The claim for one build mode; the full claim is this for both. -/
def HidesHandshake (m : Mode) : Prop :=
  ∀ (rd rd' : Reader) (wr wr' : Writer) (rng rng' : Rng) (c c' : TlsClient) (S S' : Session) (clear prot prot' : List (UInt8 × UInt8 × Bytes)) (a b : UInt8) (pw pw' pre pre' post post' : Bytes),
    TlsClient.new m rd wr rng = (.ok (), c) → TlsClient.new m rd' wr' rng' = (.ok (), c') → Completed m rd wr rng c S clear prot a b pw pre post →
    Completed m rd' wr' rng' c' S' clear prot' a b pw' pre' post' → prot.map publicPart = prot'.map publicPart → Reader.Twin rd rd' → Writer.Twin wr wr' →
    rng.bytes.length - c.rng.bytes.length = rng'.bytes.length - c'.rng.bytes.length → (newT m rd wr rng).1 = (newT m rd' wr' rng').1

/-- The claim holds of release builds and not of debug builds. -/
theorem C112_only_release (m : Mode) : HidesHandshake m ↔ m = .release := by
  constructor
  · intro hH
    cases m with
    | release => rfl
    | debug =>
      exfalso
      obtain ⟨V, hV⟩ : ∃ V : ServerValues, V.Conforms := ⟨{ random := List.replicate 32 7, secret := 1 },
        ⟨by simp, by simp, by simp, by simp, by decide, by rw [one_nsmul]; exact Spec.P256.G_ne_zero, by simp⟩⟩
      obtain ⟨random, hr⟩ : ∃ random : Bytes, random.length = 32 := ⟨List.replicate 32 0, by decide⟩
      have p1 : leNat (1 :: List.replicate 31 0) < P256.p := by decide
      have p2 : leNat (2 :: List.replicate 31 0) < P256.p := by decide
      have l1 : (1 :: List.replicate 31 0 : Bytes).length = 32 := by decide
      have l2 : (2 :: List.replicate 31 0 : Bytes).length = 32 := by decide
      have f1 : (firstIs 1 []).bytes = 1 :: List.replicate 31 0 := List.append_nil _
      have f2 : (firstIs 2 []).bytes = 2 :: List.replicate 31 0 := List.append_nil _
      rw [← f1] at p1 l1
      rw [← f2] at p2 l2
      obtain ⟨S, hS⟩ : ∃ S, S = V.session random (clientPoint (firstIs 1 []).bytes) := ⟨_, rfl⟩
      obtain ⟨S', hS'⟩ : ∃ S, S = V.session random (clientPoint (firstIs 2 []).bytes) := ⟨_, rfl⟩
      have hff : S'.flight = S.flight := by
        have : ∀ r P r' P', (V.session r P).flight = (V.session r' P').flight := fun _ _ _ _ => rfl
        rw [hS, hS', this]
      have hc : Cuts (chunks 16384 S.flight) S.flight := cuts_exists _ (by have := flight_length hV hS; omega)
      generalize chunks 16384 S.flight = fs at hc
      obtain ⟨rd, hrd⟩ : ∃ rd : Reader, rd = ⟨[.data (serverWire S fs [finishedBytes S.serverVerify])]⟩ := ⟨_, rfl⟩
      obtain ⟨rd', hrd'⟩ : ∃ rd : Reader, rd = ⟨[.data (serverWire S' fs [finishedBytes S'.serverVerify])]⟩ := ⟨_, rfl⟩
      obtain ⟨c, r1, n1, pw, C⟩ := whole_run .debug hV hr l1 p1 hS hc hrd
      obtain ⟨c', r1', n1', pw', C'⟩ := whole_run .debug hV hr l2 p2 hS' (by rw [hff]; exact hc) hrd'
      have hl := finishedBytes_length (serverVerify_length (⟨⟨[], by simp, by simp⟩, hr, l1, p1⟩ : Draws (random ++ (firstIs 1 []).bytes) random (firstIs 1 []).bytes []) hV hS)
      have hl' := finishedBytes_length (serverVerify_length (⟨⟨[], by simp, by simp⟩, hr, l2, p2⟩ : Draws (random ++ (firstIs 2 []).bytes) random (firstIs 2 []).bytes []) hV hS')
      have ht : Reader.Twin rd rd' := by
        have : (serverWire S fs [finishedBytes S.serverVerify]).length = (serverWire S' fs [finishedBytes S'.serverVerify]).length := by
          simp only [serverWire, protectedRecords, List.length_append, protectedRecord_length, hl, hl']
        rw [hrd, hrd']
        simp only [Reader.Twin, List.map_cons, List.map_nil, Ev.shape, this]
      clear hrd hrd' hc hS hS' hff
      have hp : [((3, 3, finishedBytes S.serverVerify) : UInt8 × UInt8 × Bytes)].map publicPart = [((3, 3, finishedBytes S'.serverVerify) : UInt8 × UInt8 × Bytes)].map publicPart := by
        generalize finishedBytes S.serverVerify = x at hl
        generalize finishedBytes S'.serverVerify = x' at hl'
        simp only [List.map_cons, List.map_nil, publicPart, hl, hl']
      have hn : (random ++ (firstIs 1 []).bytes).length - c.rng.bytes.length = (random ++ (firstIs 2 []).bytes).length - c'.rng.bytes.length := by
        rw [n1, n1', List.length_append, List.length_append, l1, l2]
      exact C112_debug_leaks r1 r1' C C' ht ⟨rfl, rfl⟩ hr hr rfl rfl (hH _ _ _ _ _ _ _ _ _ _ _ _ _ _ _ _ _ _ _ _ _ r1 r1' C C' hp ht ⟨rfl, rfl⟩ hn)
  · rintro rfl
    intro rd rd' wr wr' rng rng' c c' S S' clear prot prot' a b pw pw' pre pre' post post' h h' hC hC' hp hr hw hn
    exact (C112_handshake_constant_time_partial h h' hC hC' hp hr hw hn).1

/-! ### The observations are not too few -/

/-- The observation of a message's kind tells its type on the wire, so that messages of different types look different. -/
theorem C112_kind_seen (h : Handshake) : TlsReader.handshakeKind h = (Spec.typeOf h).toNat := by cases h <;> rfl

/-- The observations of the checks of the ServerHello tell which of them failed. -/
theorem C112_hello_seen (d d' : ServerHello) (h : (checkServerHelloT d).trace = (checkServerHelloT d').trace) :
    (((d.serverVersion.major, d.serverVersion.minor) = TLS_VERSION) ↔ ((d'.serverVersion.major, d'.serverVersion.minor) = TLS_VERSION)) ∧
      (d.cipherSuite = suite ↔ d'.cipherSuite = suite) ∧ (d.compressionMethod = .null ↔ d'.compressionMethod = .null) := by
  have e : ∀ d, (checkServerHelloT d).trace = [.branch (decide ((d.serverVersion.major, d.serverVersion.minor) ≠ TLS_VERSION)), .branch (decide (d.cipherSuite ≠ suite)),
      .branch (decide (d.compressionMethod ≠ .null))] := fun d => rfl
  rw [e, e] at h
  simp only [List.cons.injEq, Obs.branch.injEq, and_true, decide_eq_decide] at h
  exact ⟨not_iff_not.mp h.1, not_iff_not.mp h.2.1, not_iff_not.mp h.2.2⟩

end Husk
