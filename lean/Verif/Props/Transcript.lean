import Verif.Props.HandshakeSuccess
/-! C70: what the Finished messages protect of the messages the client received, and what not. -/

namespace Husk

open Item Spec TlsReader TlsClient

/-! ### Specification -/

/-- The lengths of the values are those the messages have room for. -/
structure Session.Sizes (S : Session) : Prop where
  random : S.random.length = 32
  serverRandom : S.serverRandom.length = 32
  sessionId : S.sessionId.length ≤ 32
  hello : (serverHelloBytes S.serverRandom S.sessionId S.ext).length < 2 ^ 24 + 4
  certs : (certificateBytes S.certs).length < 2 ^ 24 + 4
  keyExchange : S.keyExchange.length < 2 ^ 24
  point : S.point.length = 65
  pms : S.pms.length = 32

/-- Two different transcripts with the same server Finished value: what an attacker who changes messages has to find. -/
def FinishedCollision (S S' : Session) : Prop :=
  ∃ x x' : Bytes, x ≠ x' ∧ tlsPrf S.master (ascii "server finished") (Spec.Sha256.sha256 x) 12 = tlsPrf S'.master (ascii "server finished") (Spec.Sha256.sha256 x') 12

/-! ### Reading a ServerHello with more bytes after its extension block -/

theorem read_option_junk {x : ExtensionVec} {b junk : Bytes} (hw : wf (some x)) (hb : TlsItem.write (some x) = .ok b) :
    (TlsItem.read (α := Option ExtensionVec)).run (b ++ junk) = (.ok (some x), []) := by
  have hb' : TlsItem.write x = .ok b := hb
  have hw' : wf x := hw
  have hne : (b ++ junk).length ≠ 0 := by
    obtain ⟨bs, _, h2⟩ := Res.bind_eq_ok.mp (show (TlsVec.writeItems x.items >>= fun body => pure (writeNum 2 (TlsVec.sizes x.items) ++ body)) = Res.ok b from hb')
    have := congrArg List.length (Res.ok.inj h2)
    rw [writeNum_eq, List.length_append, beBytes_length] at this
    rw [List.length_append]
    omega
  have hr := LawfulItem.read_write x b junk hw' hb'
  show (readToEnd >>= fun rest => if rest.length = 0 then (pure none : P (Option ExtensionVec)) else do
    let x ← St.lift ((TlsItem.read (α := ExtensionVec)).run rest).1
    return some x).run _ = _
  rw [St.bind_of_ok (show readToEnd.run (b ++ junk) = (.ok (b ++ junk), []) from rfl), if_neg hne, hr]
  rfl

theorem read_serverHello_junk {sh : ServerHello} {body junk : Bytes} (hw : wf sh) (hx : sh.extensions ≠ none) (hb : TlsItem.write sh = .ok body) :
    (TlsItem.read (α := ServerHello)).run (body ++ junk) = (.ok sh, []) := by
  obtain ⟨v, r, sid, cs, cm, ext⟩ := sh
  obtain ⟨w1, w2, w3⟩ := hw
  simp only [TlsItem.write] at hb
  obtain ⟨b1, h1, hb⟩ := Res.bind_eq_ok.mp hb
  obtain ⟨b2, h2, hb⟩ := Res.bind_eq_ok.mp hb
  obtain ⟨b3, h3, hb⟩ := Res.bind_eq_ok.mp hb
  obtain ⟨b4, h4, hb⟩ := Res.bind_eq_ok.mp hb
  obtain ⟨b5, h5, hb⟩ := Res.bind_eq_ok.mp hb
  obtain ⟨b6, h6, hb⟩ := Res.bind_eq_ok.mp hb
  have hb := Res.ok.inj hb
  subst hb
  cases ext with
  | none => exact absurd rfl hx
  | some x =>
    have e6 := read_option_junk (junk := junk) w3 h6
    simp only [List.append_assoc]
    show (do
      let serverVersion ← TlsItem.read
      let random ← TlsItem.read
      let sessionId ← TlsItem.read
      let cipherSuite ← TlsItem.read
      let compressionMethod ← TlsItem.read
      let extensions ← TlsItem.read
      return ({ serverVersion, random, sessionId, cipherSuite, compressionMethod, extensions } : ServerHello) : P ServerHello).run _ = _
    rw [St.bind_of_ok (LawfulItem.read_write v b1 _ trivial h1), St.bind_of_ok (LawfulItem.read_write r b2 _ w1 h2), St.bind_of_ok (LawfulItem.read_write sid b3 _ w2 h3),
      St.bind_of_ok (LawfulItem.read_write cs b4 _ trivial h4), St.bind_of_ok (LawfulItem.read_write cm b5 _ trivial h5), St.bind_of_ok e6]
    rfl

/-! ### Framing is injective -/

theorem handshakeBytes_inj {ty ty' : UInt8} {b b' x x' : Bytes} (hl : b.length < 2 ^ 24) (hl' : b'.length < 2 ^ 24)
    (h : handshakeBytes ty b ++ x = handshakeBytes ty' b' ++ x') : b = b' ∧ x = x' := by
  simp only [handshakeBytes, List.cons_append, List.append_assoc, List.cons.injEq] at h
  obtain ⟨e1, e2⟩ := List.append_inj h.2 (by simp)
  have := congrArg beNat e1
  rw [beNat_beBytes, beNat_beBytes, Nat.mod_eq_of_lt (show b.length < 256 ^ 3 from hl), Nat.mod_eq_of_lt (show b'.length < 256 ^ 3 from hl')] at this
  exact List.append_inj e2 this

theorem ofNat_inj {a b : Nat} (ha : a < 256) (hb : b < 256) (h : UInt8.ofNat a = UInt8.ofNat b) : a = b := by
  have := congrArg UInt8.toNat h
  rw [UInt8.toNat_ofNat', UInt8.toNat_ofNat', Nat.mod_eq_of_lt ha, Nat.mod_eq_of_lt hb] at this
  exact this

theorem helloBody_inj {r r' sid sid' ext ext' : Bytes} (hr : r.length = r'.length) (hs : sid.length ≤ 32) (hs' : sid'.length ≤ 32)
    (h : [3, 3] ++ r ++ (UInt8.ofNat sid.length :: sid) ++ [0xcc, 0xa8] ++ [0] ++ ext = [3, 3] ++ r' ++ (UInt8.ofNat sid'.length :: sid') ++ [0xcc, 0xa8] ++ [0] ++ ext') :
    r = r' ∧ sid = sid' ∧ ext = ext' := by
  simp only [List.append_assoc, List.cons_append, List.nil_append, List.cons.injEq, true_and] at h
  obtain ⟨e1, e2⟩ := List.append_inj h hr
  simp only [List.cons.injEq] at e2
  obtain ⟨e3, e4⟩ := List.append_inj e2.2 (ofNat_inj (by omega) (by omega) e2.1)
  simp only [List.cons.injEq, true_and] at e4
  exact ⟨e1, e3, e4⟩

theorem certs_inj {l l' : List Bytes} (hl : (l.flatMap fun c => beBytes 3 c.length ++ c).length < 2 ^ 24) (hl' : (l'.flatMap fun c => beBytes 3 c.length ++ c).length < 2 ^ 24)
    (h : (l.flatMap fun c => beBytes 3 c.length ++ c) = l'.flatMap fun c => beBytes 3 c.length ++ c) : l = l' := by
  induction l generalizing l' with
  | nil =>
    cases l' with
    | nil => rfl
    | cons c' l' =>
      have := congrArg List.length h
      simp at this
      omega
  | cons c l ih =>
    cases l' with
    | nil =>
      have := congrArg List.length h
      simp at this
    | cons c' l' =>
      rw [List.flatMap_cons, List.length_append, List.length_append, beBytes_length] at hl hl'
      rw [List.flatMap_cons, List.flatMap_cons] at h
      obtain ⟨e1, e2⟩ := handshakeBytes_inj (ty := 0) (ty' := 0) (x := l.flatMap fun c => beBytes 3 c.length ++ c) (x' := l'.flatMap fun c => beBytes 3 c.length ++ c)
        (show c.length < 2 ^ 24 by omega) (show c'.length < 2 ^ 24 by omega) (by rw [handshakeBytes, handshakeBytes, List.cons_append, List.cons_append, h])
      rw [e1, ih (by omega) (by omega) e2]

theorem certificateBytes_inj {l l' : List Bytes} {x x' : Bytes} (hl : (certificateBytes l).length < 2 ^ 24 + 4) (hl' : (certificateBytes l').length < 2 ^ 24 + 4)
    (h : certificateBytes l ++ x = certificateBytes l' ++ x') : l = l' ∧ x = x' := by
  simp only [certificateBytes, handshakeBytes, List.length_cons, List.length_append, beBytes_length] at hl hl'
  obtain ⟨e1, e2⟩ := handshakeBytes_inj (by rw [List.length_append, beBytes_length]; omega) (by rw [List.length_append, beBytes_length]; omega) h
  exact ⟨certs_inj (by omega) (by omega) (List.append_inj e1 (by simp)).2, e2⟩

theorem serverHelloBytes_inj {r r' sid sid' ext ext' x x' : Bytes} (hr : r.length = r'.length) (hs : sid.length ≤ 32) (hs' : sid'.length ≤ 32)
    (hl : (serverHelloBytes r sid ext).length < 2 ^ 24 + 4) (hl' : (serverHelloBytes r' sid' ext').length < 2 ^ 24 + 4)
    (h : serverHelloBytes r sid ext ++ x = serverHelloBytes r' sid' ext' ++ x') : (r = r' ∧ sid = sid' ∧ ext = ext') ∧ x = x' := by
  have len : ∀ b : Bytes, (handshakeBytes 2 b).length < 2 ^ 24 + 4 → b.length < 2 ^ 24 := by
    intro b hb
    simp only [handshakeBytes, List.length_cons, List.length_append, beBytes_length] at hb
    omega
  obtain ⟨e1, e2⟩ := handshakeBytes_inj (len _ hl) (len _ hl') h
  exact ⟨helloBody_inj hr hs hs' e1, e2⟩

/-- A ServerHello with bytes after its extension block is read as without them. -/
theorem Framed.junk {sh : ServerHello} {r sid ext : Bytes} (junk : Bytes) (hf : Framed (serverHelloBytes r sid ext) (.server_hello sh)) (hx : sh.extensions ≠ none)
    (hw : TlsItem.write (Handshake.server_hello sh) = .ok (serverHelloBytes r sid ext)) (hl : (serverHelloBytes r sid (ext ++ junk)).length < 2 ^ 24 + 4) :
    Framed (serverHelloBytes r sid (ext ++ junk)) (.server_hello sh) := by
  obtain ⟨_, _, _, _, hr⟩ := hf
  obtain ⟨-, _, _, _, _, _, w, _⟩ := Handshake.read_inv hr
  obtain ⟨c, h1, h2⟩ := Handshake.writeBody_inv hw
  refine ⟨2, _, ?_, rfl, ?_⟩
  · simp only [serverHelloBytes, handshakeBytes, List.length_cons, List.length_append, beBytes_length] at hl ⊢
    omega
  have l1 : ∀ x : Nat, writeNum 1 x = [UInt8.ofNat x] := fun _ => rfl
  rw [serverHelloBytes, handshakeBytes, l1, List.singleton_append, List.cons.injEq] at h2
  obtain ⟨_, h4⟩ := List.append_inj h2.2 (by rw [writeNum_eq]; simp)
  have h5 := read_serverHello_junk (junk := junk) w hx h1
  have h6 := Handshake.read_of_arm (h := .server_hello sh) (n := (c ++ junk).length) (body := c ++ junk) (by
    show (Handshake.readBody ServerHello .server_hello).run _ = _
    rw [Handshake.readBody, St.bind_of_ok h5]
    rfl)
  rw [serverHelloBytes, ← List.append_assoc _ ext junk, h4]
  exact h6

/-! ### C70 -/

/-- The run against a server whose ServerHello got bytes after its extension block on the way. -/
theorem tampered_run (m : Mode) (rd : Reader) (wr : Writer) (rng : Rng) (hfa : wr.faults = []) {random block rest : Bytes} (D : Draws rng.bytes random block rest)
    {V : ServerValues} (hV : V.Conforms) (hx : V.exts ≠ none) (junk : Bytes) (S : Session) (hS : S = V.session random (clientPoint block))
    (hj : (serverHelloBytes V.random V.sessionId (extPart V.exts ++ junk)).length < 2 ^ 24 + 4)
    (fs1 fs2 : List Bytes) (l : List Sym) (hrd : Reply { S with junk := junk } fs1 fs2 l rd) :
    ∃ c wEnd, TlsClient.new m rd wr rng = (.ok (), c) ∧ Ran m rd wr rng rest S S.serverVerify fs1 fs2 l c wEnd := by
  obtain ⟨more, hm, hk⟩ := hV.keys D m
  have hrl := D.randomLength
  obtain ⟨f, hfit, v1, v3, f3, f4, f5, b1, b2, b3, hkeys, hcv, hsv, hw⟩ := session_flight_hello hV random _ S hS
  obtain ⟨k1, k2, k3, k4⟩ := hfit.keys_length hrl
  have hvl : S.serverVerify.length = 12 := by
    rw [← hsv]
    exact hfit.serverVerify_length hrl
  have hext : f.hello.extensions ≠ none := by
    intro hn
    obtain ⟨_, _, _, _, hr⟩ := id b1
    obtain ⟨-, _, _, _, _, _, w, _⟩ := Handshake.read_inv hr
    have h2 := write_serverHello w v1 hfit.suite v3
    rw [hw] at h2
    have h2 := Res.ok.inj h2
    simp only [serverHelloBytes, handshakeBytes, List.cons.injEq, true_and] at h2
    have h3 := (List.append_inj h2 (by simp)).2
    have h4 := (helloBody_inj (hV.random.trans hfit.random.symm) hV.sessionId ((wf_byteVec _).mp w.2.1).2 h3).2.2
    rw [hn] at h4
    cases he : V.exts with
    | none => exact hx he
    | some es =>
      rw [he] at h4
      have := congrArg List.length h4
      rw [show extBytes none = [] from rfl] at this
      simp [extPart, extensionBlock] at this
  have b1' := b1.junk junk hext hw hj
  have hk' : (Ecdhe.computeKeys m f.ske.data).run ⟨more⟩ = (.ok (f.keyData, f.preMasterSecret), ⟨rest⟩) := by
    rw [f4, f5, ← hk, f3]
  have hflight : { S with junk := junk }.flight =
      serverHelloBytes V.random V.sessionId (extPart V.exts ++ junk) ++ (certificateBytes V.certs ++ (handshakeBytes 12 V.keyExchange ++ handshakeBytes 14 [])) := by
    rw [hS]; rfl
  obtain ⟨h1, h2, hst⟩ := hrd
  obtain ⟨c', wEnd, g⟩ := handshake_forward m (fresh rd wr rng) (fresh_fresh rd wr rng) rfl rfl hfa random more hm hrl f _ hfit ⟨rest⟩
    v1 v3 hk' _ _ _ b1' b2 b3 S.serverVerify [] _ hvl rfl (by simp [finishedBytes, handshakeBytes]) fs1 fs2 l
    (by
      rw [← hflight, hkeys]
      exact ⟨h1.1, h2.1, h1.2.1, h2.2.1, by rw [List.append_nil]; exact h1.2.2, h2.2.2, hst⟩)
  rw [hkeys, hcv, hsv] at g
  rw [hkeys] at k1 k2 k3 k4
  obtain ⟨a1, a2, a3, a4, a5, a6, a7, a8, a9, a10, a11, a12, a13, a14, a15, a16, a17, a18⟩ := g
  refine ⟨c', wEnd, ?_, a1, by rw [hS] at a2 ⊢; exact a2, a3, a4, a5, a6, a7, a8, a9, a10, a11, a12, a13, a14, ⟨a15, a16, a17, a18⟩, k1, k2, k3, k4, hvl⟩
  rw [if_pos rfl] at a1
  exact (new_of_handshake m rd wr rng (.ok ()) c' (by simp)).mpr a1

/-- C70 fails: whoever is between the two can put any bytes after the extension block of the ServerHello, and neither side notices. Against every server that sends
extensions, the client's run on the changed messages ends as the run on the server's messages: it succeeds, has sent the same bytes, holds the same keys, and goes on
reading at the same place. -/
theorem C70_tampering_undetected (m : Mode) (rd rd' : Reader) (wr : Writer) (rng : Rng) (hfa : wr.faults = []) (random block rest : Bytes) (D : Draws rng.bytes random block rest)
    (V : ServerValues) (hV : V.Conforms) (hx : V.exts ≠ none) (S : Session) (hS : S = V.session random (clientPoint block)) (junk : Bytes) (hne : junk ≠ [])
    (hj : (serverHelloBytes V.random V.sessionId (extPart V.exts ++ junk)).length < 2 ^ 24 + 4) (fs1 fs1' fs2 : List Bytes) (l : List Sym)
    (hrd : Reply S fs1 fs2 l rd) (hrd' : Reply { S with junk := junk } fs1' fs2 l rd') :
    fs1'.flatten ≠ fs1.flatten ∧ ∃ c c', TlsClient.new m rd wr rng = (.ok (), c) ∧ TlsClient.new m rd' wr rng = (.ok (), c') ∧
      c'.writer.writer.wire = c.writer.writer.wire ∧ c'.writer.encryptor = c.writer.encryptor ∧ c'.writer.iv = c.writer.iv ∧ c'.writer.writeCount = c.writer.writeCount ∧
      c'.reader.decryptor = c.reader.decryptor ∧ c'.reader.iv = c.reader.iv ∧ c'.reader.readCount = c.reader.readCount ∧
      c'.reader.reader.stream = c.reader.reader.stream ∧ c'.reader.handshakeBuffer = c.reader.handshakeBuffer := by
  obtain ⟨c, w, h1, r1⟩ := reply_run m rd wr rng hfa random block rest D V hV S hS (serverVerify_length D hV hS) fs1 fs2 l hrd
  obtain ⟨c', w', h2, r2⟩ := tampered_run m rd' wr rng hfa D hV hx junk S hS hj fs1' fs2 l hrd'
  refine ⟨?_, c, c', h1, h2, by rw [r1.wire, r2.wire], by rw [r1.encryptor, r2.encryptor], by rw [r1.writerIv, r2.writerIv], by rw [r1.writeCount, r2.writeCount],
    by rw [r1.decryptor, r2.decryptor], by rw [r1.readerIv, r2.readerIv], by rw [r1.readCount, r2.readCount], by rw [r1.stream, r2.stream], by rw [r1.buffer, r2.buffer]⟩
  rw [hrd.flight.2.2, hrd'.flight.2.2]
  intro h
  have hl := congrArg List.length h
  have hjl := List.length_pos_iff.mpr hne
  have hS0 : S.junk = [] := by rw [hS]; rfl
  simp only [Session.flight, serverHelloBytes, handshakeBytes, hS0, List.length_append, List.length_cons, List.length_nil, beBytes_length] at hl
  omega

theorem Session.Sizes.clientVerify {S : Session} (h : S.Sizes) : S.clientVerify.length = 12 := by
  refine (verifyData_eq .debug S.master (ascii "client finished") S.messages ?_ (by decide) ?_).2
  · rw [Session.master, tlsMaster_length _ _ _ (by rw [h.pms]; decide) h.random h.serverRandom]; decide
  · have h1 := h.hello
    have h2 := h.certs
    have h3 := h.keyExchange
    have h4 : (handshakeBytes 12 S.keyExchange).length < 2 ^ 24 + 4 := by
      simp only [handshakeBytes, List.length_cons, List.length_append, beBytes_length]
      omega
    have h5 : (handshakeBytes 14 []).length = 4 := rfl
    obtain ⟨_, _, l1⟩ := clientHello_eq S.random h.random
    obtain ⟨_, _, l6⟩ := clientKeyExchange_eq S.point h.point
    rw [Session.messages, handshakeMessages, Session.server]
    simp only [List.length_append, l1, l6, h5]
    omega

theorem messages_inj {S S' : Session} (h : S.Sizes) (h' : S'.Sizes) (e : S.messages = S'.messages) : S.random = S'.random ∧ S.point = S'.point ∧ S.server = S'.server ∧
    S.serverRandom = S'.serverRandom ∧ S.sessionId = S'.sessionId ∧ S.ext = S'.ext ∧ S.certs = S'.certs ∧ S.keyExchange = S'.keyExchange := by
  rw [Session.messages, Session.messages, handshakeMessages, handshakeMessages] at e
  have hr := h.random
  have hr' := h'.random
  obtain ⟨e1, e2⟩ := handshakeBytes_inj (by simp [hr]) (by simp [hr']) e
  simp only [List.append_assoc, List.cons_append, List.nil_append, List.cons.injEq, true_and] at e1
  have e1 := (List.append_inj e1 (hr.trans hr'.symm)).1
  rw [Session.server, Session.server] at e2
  simp only [List.append_assoc] at e2
  obtain ⟨⟨f1, f2, f3⟩, e3⟩ := serverHelloBytes_inj (h.serverRandom.trans h'.serverRandom.symm) h.sessionId h'.sessionId h.hello h'.hello e2
  obtain ⟨f4, e4⟩ := certificateBytes_inj h.certs h'.certs e3
  obtain ⟨f5, e5⟩ := handshakeBytes_inj h.keyExchange h'.keyExchange e4
  have e6 := (List.append_inj e5 rfl).2
  rw [clientKeyExchangeBytes, clientKeyExchangeBytes, handshakeBytes, handshakeBytes] at e6
  have e7 := (List.append_inj (List.cons.inj e6).2 (by simp)).2
  exact ⟨e1, (List.cons.inj e7).2, by rw [Session.server, Session.server, f1, f2, f3, f4, f5], f1, f2, f3, f4, f5⟩

/-- C70, what holds: let the server have had the values S' before it when it made the Finished message the client accepted. Unless two transcripts collide, the client sent
the random and the public key the server received, and the messages the client received in clear are those the server sent, except for bytes after the extension block of
the ServerHello; if the server sent no extensions, they are exactly those. -/
theorem C70_view_partial (m : Mode) (rd : Reader) (wr : Writer) (rng : Rng) (c : TlsClient) (h : TlsClient.new m rd wr rng = (.ok (), c)) :
    ∃ S clear prot a b protWire pre post, Completed m rd wr rng c S clear prot a b protWire pre post ∧
      ∀ S' : Session, S'.Sizes → S'.junk = [] → S'.serverVerify = S.serverVerify →
        (S.random = S'.random ∧ S.point = S'.point ∧ S.flight = { S' with junk := S.junk }.flight ∧ (S'.ext = [] → S.flight = S'.flight)) ∨ FinishedCollision S S' := by
  obtain ⟨S, clear, prot, a, b, w, pre, post, hC⟩ := C27_flight_partial m rd wr rng c h
  refine ⟨S, clear, prot, a, b, w, pre, post, hC, fun S' hs hj he => ?_⟩
  obtain ⟨l1, l2, l3, l4, l5, l6⟩ := hC.lengths
  obtain ⟨z1, z2, z3⟩ := hC.sizes
  have hs0 : S.Sizes := ⟨l1, l2, l3, by
    refine lt_of_le_of_lt ?_ z1
    simp only [serverHelloBytes, handshakeBytes, List.length_cons, List.length_append, beBytes_length]
    omega, z2, z3, l4, l5⟩
  by_cases hx : S.messages ++ finishedBytes S.clientVerify = S'.messages ++ finishedBytes S'.clientVerify
  · left
    have hm : S.messages = S'.messages := (List.append_inj' hx (by
      simp only [finishedBytes, handshakeBytes, List.length_cons, List.length_append, beBytes_length, hs0.clientVerify, hs.clientVerify])).1
    obtain ⟨e1, e2, e3, f1, f2, f3, f4, f5⟩ := messages_inj hs0 hs hm
    have hf : S.flight = { S' with junk := S.junk }.flight := by rw [Session.flight, Session.flight, f1, f2, f3, f4, f5]
    refine ⟨e1, e2, hf, fun hn => ?_⟩
    rw [hf]
    have : S.junk = [] := hC.junk (f3.trans hn)
    rw [Session.flight, Session.flight, this, hj]
  · exact Or.inr ⟨_, _, hx, he.symm⟩

/-- The hypotheses of `C70_tampering_undetected` are met, for every draw of the client and every server that sends extensions: one byte is added. -/
example (random block : Bytes) (hr : random.length = 32) (hb : block.length = 32) (hlt : leNat block < P256.p) (V : ServerValues) (hV : V.Conforms) (hx : V.exts ≠ none)
    (S : Session) (hS : S = V.session random (clientPoint block)) :
    Draws (random ++ block) random block [] ∧ (serverHelloBytes V.random V.sessionId (extPart V.exts ++ [0x55])).length < 2 ^ 24 + 4 ∧
      ∃ fs1 fs1' fs2 rd rd', Reply S fs1 fs2 [] rd ∧ Reply { S with junk := [0x55] } fs1' fs2 [] rd' := by
  have D : Draws (random ++ block) random block [] := ⟨⟨[], by simp, by simp⟩, hr, hb, hlt⟩
  have hext : (extPart V.exts).length < 2 ^ 16 + 2 := by
    cases he : V.exts with
    | none => decide
    | some e => exact (hV.exts e he).2
  have h1 := hV.random
  have h2 := hV.sessionId
  have hfl := flight_length hV hS
  have hfl' : { S with junk := [0x55] }.flight.length = S.flight.length + 1 := by
    have hS0 : S.junk = [] := by rw [hS]; rfl
    simp only [Session.flight, serverHelloBytes, handshakeBytes, hS0, List.length_append, List.length_cons, List.length_nil, beBytes_length]
    omega
  have hfin := cuts_exists (finishedBytes S.serverVerify) (by simp [finishedBytes, handshakeBytes, serverVerify_length D hV hS])
  refine ⟨D, ?_, _, _, chunks 16384 (finishedBytes S.serverVerify), ⟨[.data (serverWire S (chunks 16384 S.flight) (chunks 16384 (finishedBytes S.serverVerify)))]⟩,
    ⟨[.data (serverWire S (chunks 16384 { S with junk := [0x55] }.flight) (chunks 16384 (finishedBytes S.serverVerify)))]⟩,
    ⟨cuts_exists _ (by omega), hfin, by rw [List.append_nil]; exact List.append_nil _⟩,
    ⟨cuts_exists _ (by omega), hfin, by rw [List.append_nil]; exact List.append_nil _⟩⟩
  simp only [serverHelloBytes, handshakeBytes, List.length_append, List.length_cons, List.length_nil, beBytes_length]
  omega

/-- A server that follows the protocol has values as `C70_view_partial` asks. -/
example (V : ServerValues) (hV : V.Conforms) (random : Bytes) (hr : random.length = 32) (P : Spec.P256.curve.Point) :
    (V.session random P).Sizes ∧ (V.session random P).junk = [] := by
  have hext : (extPart V.exts).length < 2 ^ 16 + 2 := by
    cases he : V.exts with
    | none => decide
    | some e => exact (hV.exts e he).2
  have h1 := hV.random
  have h2 := hV.sessionId
  have h3 := hV.signature
  refine ⟨⟨hr, h1, h2, ?_, Nat.lt_add_right 4 hV.certsLen, ?_, Ecdhe.encode_length _, ?_⟩, rfl⟩
  · show (serverHelloBytes V.random V.sessionId (extPart V.exts)).length < _
    simp only [serverHelloBytes, handshakeBytes, List.length_append, List.length_cons, List.length_nil, beBytes_length]
    omega
  · show V.keyExchange.length < _
    simp only [ServerValues.keyExchange, List.length_append, List.length_cons, List.length_nil, beBytes_length, Ecdhe.encode_length]
    omega
  · show (Spec.P256.xBytes _).length = 32
    cases V.secret • P <;> simp [Spec.P256.xBytes]

end Husk
