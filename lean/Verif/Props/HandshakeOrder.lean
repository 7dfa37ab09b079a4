import Verif.Proofs.HandshakePrefix
import Verif.Props.HelloRejected
/-! C62, C63: messages that come out of order, and alerts, at each position of the handshake. -/

namespace Husk

open Item Spec TlsReader TlsClient

/-! ### Specification -/

noncomputable section

/-- The messages of the server's first flight. -/
def ServerValues.messages (V : ServerValues) : List Bytes :=
  [serverHelloBytes V.random V.sessionId (extPart V.exts), certificateBytes V.certs, handshakeBytes 12 V.keyExchange, handshakeBytes 14 []]

/-- The first `i` of them. -/
def ServerValues.first (V : ServerValues) (i : Nat) : Bytes := (V.messages.take i).flatten

end

/-- The types of the messages the client waits for: ServerHello, Certificate, ServerKeyExchange, ServerHelloDone. -/
def awaited : List UInt8 := [2, 11, 12, 14]

/-- The beginning of a handshake message, possibly empty, but not all of it. -/
def Unfinished (pre : Bytes) : Prop := ∃ ty body post, body.length < 2 ^ 24 ∧ pre ++ post = handshakeBytes ty body ∧ post ≠ []

theorem first_four {V : ServerValues} (random : Bytes) (P : Spec.P256.curve.Point) : V.first 4 = (V.session random P).flight := by
  show _ = serverHelloBytes V.random V.sessionId (extPart V.exts ++ []) ++ _
  rw [List.append_nil]
  simp [ServerValues.first, ServerValues.messages]
  rfl

/-! ### The positions -/

/-- What the client does with the result of the read after the first `i` messages of the flight. -/
theorem flight_position (m : Mode) (rd : Reader) (wr : Writer) (rng : Rng) (hfa : wr.faults = []) {random block rest : Bytes} (D : Draws rng.bytes random block rest)
    {V : ServerValues} (hV : V.Conforms) (i : Nat) (hi : i < 4) (bs : Bytes) (l : List Sym) (hp : ClearPending (TlsReader.new rd) (V.first i ++ bs) l) :
    ∃ s, ClearPending s bs l ∧ ∀ x s', (readMessage m).run s = (x, s') → (∀ h, x = .ok (.HandshakeMessage h) → awaited[i]? ≠ some (Spec.typeOf h)) →
      (TlsClient.new m rd wr rng).1 = refused x := by
  obtain ⟨more, hm, hk⟩ := hV.keys D m
  obtain ⟨f, hfit, v1, v3, f3, f4, f5, b1, b2, b3, -, -, -⟩ := session_flight hV random (clientPoint block) _ rfl
  have hck := And.intro v1 (And.intro hfit.suite v3)
  match i, hi with
  | 0, _ =>
    refine ⟨_, hp, fun x s' hx hne => ?_⟩
    refine new_of_flight m rd wr rng hfa hm D.randomLength fun c hc _ => flight_not_hello (by rw [hc]; exact hx) ?_
    rintro d rfl
    exact hne _ rfl rfl
  | 1, _ =>
    have hp : ClearPending (TlsReader.new rd) (serverHelloBytes V.random V.sessionId (extPart V.exts) ++ bs) l := by
      simpa [ServerValues.first, ServerValues.messages] using hp
    obtain ⟨s1, r1, p1, -⟩ := hp.take m b1
    refine ⟨_, p1, fun x s' hx hne => ?_⟩
    refine new_of_flight m rd wr rng hfa hm D.randomLength fun c hc _ => flight_not_certificate (by rw [hc]; exact r1) hck hx ?_
    rintro d rfl
    exact hne _ rfl rfl
  | 2, _ =>
    have hp : ClearPending (TlsReader.new rd) (serverHelloBytes V.random V.sessionId (extPart V.exts) ++ (certificateBytes V.certs ++ bs)) l := by
      simpa [ServerValues.first, ServerValues.messages] using hp
    obtain ⟨s1, r1, p1, -⟩ := hp.take m b1
    obtain ⟨s2, r2, p2, -⟩ := p1.take m b2
    refine ⟨_, p2, fun x s' hx hne => ?_⟩
    refine new_of_flight m rd wr rng hfa hm D.randomLength fun c hc _ => flight_not_keyExchange (by rw [hc]; exact r1) hck r2 hx ?_
    rintro d rfl
    exact hne _ rfl rfl
  | 3, _ =>
    have hp : ClearPending (TlsReader.new rd) (serverHelloBytes V.random V.sessionId (extPart V.exts) ++ (certificateBytes V.certs ++ (handshakeBytes 12 V.keyExchange ++ bs))) l := by
      simpa [ServerValues.first, ServerValues.messages] using hp
    obtain ⟨s1, r1, p1, -⟩ := hp.take m b1
    obtain ⟨s2, r2, p2, -⟩ := p1.take m b2
    obtain ⟨s3, r3, p3, -⟩ := p2.take m b3
    refine ⟨_, p3, fun x s' hx hne => ?_⟩
    refine new_of_flight m rd wr rng hfa hm D.randomLength fun c hc hr => flight_not_done (by rw [hc]; exact r1) hck r2 r3 (by rw [hr, f3]; exact hk) hx ?_
    rintro d rfl
    exact hne _ rfl rfl

/-- After the whole flight: the handshake is at the ChangeCipherSpec. -/
theorem change_position (m : Mode) (rd : Reader) (wr : Writer) (rng : Rng) (hfa : wr.faults = []) {random block rest : Bytes} (D : Draws rng.bytes random block rest)
    {V : ServerValues} (hV : V.Conforms) {S : Session} (hS : S = V.session random (clientPoint block)) (bs : Bytes) (l : List Sym)
    (hp : ClearPending (TlsReader.new rd) (V.first 4 ++ bs) l) :
    ∃ s master msgs fin, ∃ c : TlsClient, c.reader = s ∧ (handshake m).run (fresh rd wr rng) = (readFinished m master S.keys.serverKey msgs fin).run c ∧ ClearPending s bs l ∧
      s.iv = some S.keys.serverIv ∧ S.keys.serverKey.length = 32 ∧ S.keys.serverIv.length = 12 := by
  obtain ⟨more, hm, hk⟩ := hV.keys D m
  obtain ⟨f, hfit, v1, v3, f3, f4, f5, b1, b2, b3, hkeys, -, -⟩ := session_flight hV random (clientPoint block) S hS
  obtain ⟨k1, k2, k3, k4⟩ := hfit.keys_length D.randomLength
  rw [hkeys] at k2 k4
  have hp : ClearPending (TlsReader.new rd) (serverHelloBytes V.random V.sessionId (extPart V.exts) ++ (certificateBytes V.certs ++ (handshakeBytes 12 V.keyExchange ++ (handshakeBytes 14 [] ++ bs)))) l := by
    simpa [ServerValues.first, ServerValues.messages] using hp
  obtain ⟨s, w', h1, h2, h3, _⟩ := handshake_upto_finished m rd wr rng hfa random more hm D.randomLength f _ hfit ⟨rest⟩ v1 v3 (by rw [f3, f4, f5]; exact hk) _ _ _ bs b1 b2 b3 l hp
  rw [hkeys] at h1 h3
  exact ⟨s, _, _, _, _, rfl, h1, h2, h3, k2, k4⟩

/-- After the ChangeCipherSpec: the handshake is at the Finished. -/
theorem finished_position (m : Mode) (rd : Reader) (wr : Writer) (rng : Rng) (hfa : wr.faults = []) {random block rest : Bytes} (D : Draws rng.bytes random block rest)
    {V : ServerValues} (hV : V.Conforms) {S : Session} (hS : S = V.session random (clientPoint block)) (pre : Bytes) (hpre : Incomplete pre) (l : List Sym)
    (hp : ClearPending (TlsReader.new rd) (V.first 4 ++ pre) (ofBytes (recordBytes 20 3 3 [1]) ++ l)) :
    ∃ s, s.reader.stream = l ∧ s.handshakeBuffer.buf = pre ∧ s.iv = some S.keys.serverIv ∧ S.keys.serverKey.length = 32 ∧ S.keys.serverIv.length = 12 ∧
      ∀ x s', (readMessage m).run (keyed m s S.keys.serverKey) = (x, s') → (∀ d, x ≠ .ok (.HandshakeMessage (.finished d))) → (TlsClient.new m rd wr rng).1 = refused x := by
  obtain ⟨s, master, msgs, fin, c, hc, h1, h2, h3, h4, h5⟩ := change_position m rd wr rng hfa D hV hS pre _ hp
  obtain ⟨s1, g1, g2, g3, g4, g5⟩ := h2.other (ty := .ChangeCipherSpecTy) (f := [1]) m (by decide) (by decide) hpre
  refine ⟨s1, g2, g3, g5.trans h3, h4, h5, fun x s' hx hne => ?_⟩
  subst hc
  refine new_result hfa (c := { c with reader := s' }) ?_
  rw [h1, readFinished_keyed m master _ msgs fin c s1 g4 g1]
  exact bind_refused (onReader_ok (c := { c with reader := keyed m s1 S.keys.serverKey }) (expectFinished_other hx hne))

theorem typeOf_read {ty : UInt8} {body : Bytes} {h : Handshake} (hd : (TlsItem.read (α := Handshake)).run (handshakeBytes ty body) = (.ok h, [])) : Spec.typeOf h = ty := by
  obtain ⟨_, n, b, e, _⟩ := Handshake.read_inv hd
  have := (List.cons.inj e).1
  rw [this, UInt8.ofNat_toNat]

theorem Cuts.pending {fs : List Bytes} {bytes : Bytes} (hc : Cuts fs bytes) (rd : Reader) (l : List Sym) (hrd : rd.stream = ofBytes (fs.flatMap (recordBytes 22 3 3)) ++ l) :
    ClearPending (TlsReader.new rd) bytes l := by
  rw [← hc.2.2]
  exact ClearPending.start rd hc.1 hc.2.1 l hrd

theorem Unfinished.incomplete {pre : Bytes} (h : Unfinished pre) : Incomplete pre := by
  obtain ⟨ty, body, post, hl, hpp, hne⟩ := h
  intro x t hx
  have hp : x ++ (t ++ post) = handshakeBytes ty body := by rw [← List.append_assoc, hx, hpp]
  have htl : 0 < (t ++ post).length := by
    have := List.length_pos_iff.mpr hne
    rw [List.length_append]; omega
  generalize t ++ post = u at hp htl
  unfold HandshakeBuffer.getMessage
  simp only
  split
  · rfl
  · rename_i h4
    have hwant := Framed.wanted (ty := ty) hl []
    rw [List.append_nil, ← hp] at hwant
    have e : (((x ++ u).drop 1).take 3) = ((x.drop 1).take 3) := by
      rw [List.drop_append_of_le_length (by omega), List.take_append_of_le_length (by simp; omega)]
    rw [e, List.length_append] at hwant
    rw [if_pos]
    omega

/-- A protected record of another type, or an empty one, in place of the Finished. -/
theorem protected_other (m : Mode) (rd : Reader) (wr : Writer) (rng : Rng) (hfa : wr.faults = []) {random block rest : Bytes} (D : Draws rng.bytes random block rest)
    {V : ServerValues} (hV : V.Conforms) {S : Session} (hS : S = V.session random (clientPoint block)) (pre : Bytes) (hpre : Unfinished pre) (ty : ContentType) (f : Bytes)
    (hty : ty = .HandshakeTy → f = []) (hf : f.length ≤ 2 ^ 14) (fs : List Bytes) (hc : Cuts fs (V.first 4 ++ pre)) (l : List Sym)
    (hrd : rd.stream = ofBytes (fs.flatMap (recordBytes 22 3 3) ++ (recordBytes 20 3 3 [1] ++ protectedRecord S.keys.serverKey S.keys.serverIv 0 ty.toU8 f)) ++ l) :
    (TlsClient.new m rd wr rng).1 = refused (recordMessage ⟨ty, 3, 3, f⟩) := by
  obtain ⟨s, g1, g2, g3, g4, g5, key⟩ := finished_position m rd wr rng hfa D hV hS pre hpre.incomplete
    (ofBytes (protectedRecords S.keys.serverKey S.keys.serverIv ty.toU8 0 [f]) ++ l)
    (hc.pending rd _ (by rw [hrd]; simp only [protectedRecords, List.append_nil, ofBytes_append, List.append_assoc]))
  obtain ⟨w, sent, w', hi, hm⟩ := keyed_incoming m s g4 g5 g3 ty (fs := [f]) (by intro x hx; rw [List.mem_singleton.mp hx]; exact hf) (by rw [List.length_singleton]; decide) l g1
  obtain ⟨⟨rec, ct⟩, rfl⟩ : ∃ rc, sent = [rc] := List.length_eq_one_iff.mp (by rw [← List.length_map (f := Prod.fst), hm]; rfl)
  obtain rfl : rec = ⟨ty, 3, 3, f⟩ := by
    simp only [List.map_cons, List.map_nil, TlsWriter.recordsOf, List.cons.injEq, and_true] at hm
    exact hm
  obtain ⟨s1, r1, -⟩ := Incoming.readOther m (sent := []) hty hi (by intro rc h; cases h) (by
    show ∀ x t, x ++ t = s.handshakeBuffer.buf ++ [] → _
    rw [g2, List.append_nil]; exact hpre.incomplete)
  refine key _ _ r1 ?_
  intro d e
  unfold recordMessage at e
  cases ty with
  | HandshakeTy => cases e
  | ChangeCipherSpecTy => simp only [ccsMessage] at e; split at e <;> cases e
  | AlertTy => 
    simp only [alertMessage] at e
    split at e
    · cases e
    · split at e
      · cases e
      · split at e
        · obtain ⟨a, _, h2⟩ := Res.bind_eq_ok.mp e
          cases h2
        · cases e
  | ApplicationDataTy => cases e

/-! ### C62 -/

/-- C62: after the first `i` messages of a conforming flight, any other well-formed handshake message than the awaited one makes `new` return UnexpectedMessage,
whatever follows and however the bytes are cut into records. -/
theorem C62_flight (m : Mode) (rd : Reader) (wr : Writer) (rng : Rng) (hfa : wr.faults = []) {random block rest : Bytes} (D : Draws rng.bytes random block rest)
    {V : ServerValues} (hV : V.Conforms) (i : Nat) (hi : i < 4) (h : Handshake) (ty : UInt8) (body more : Bytes) (hl : body.length < 2 ^ 24)
    (hd : (TlsItem.read (α := Handshake)).run (handshakeBytes ty body) = (.ok h, [])) (hty : awaited[i]? ≠ some ty) (fs : List Bytes)
    (hc : Cuts fs (V.first i ++ (handshakeBytes ty body ++ more))) (l : List Sym) (hrd : rd.stream = ofBytes (fs.flatMap (recordBytes 22 3 3)) ++ l) :
    (TlsClient.new m rd wr rng).1 = .err .UnexpectedMessage := by
  obtain ⟨s, hs, key⟩ := flight_position m rd wr rng hfa D hV i hi _ l (hc.pending rd l hrd)
  obtain ⟨s1, r1, -⟩ := hs.take m ⟨ty, body, hl, rfl, hd⟩
  refine key _ _ r1 ?_
  intro h' e
  cases e
  rw [typeOf_read hd]
  exact hty

/-- C62: a ChangeCipherSpec or application data before the flight is complete. Part of a message may have come. -/
theorem C62_early (m : Mode) (rd : Reader) (wr : Writer) (rng : Rng) (hfa : wr.faults = []) {random block rest : Bytes} (D : Draws rng.bytes random block rest)
    {V : ServerValues} (hV : V.Conforms) (i : Nat) (hi : i < 4) (pre : Bytes) (hpre : Unfinished pre) (ty : UInt8) (f : Bytes)
    (hf : ty = 20 ∧ f = [1] ∨ ty = 23 ∧ f.length ≤ 2 ^ 14) (fs : List Bytes) (hc : Cuts fs (V.first i ++ pre)) (l : List Sym)
    (hrd : rd.stream = ofBytes (fs.flatMap (recordBytes 22 3 3)) ++ (ofBytes (recordBytes ty 3 3 f) ++ l)) :
    (TlsClient.new m rd wr rng).1 = .err .UnexpectedMessage := by
  obtain ⟨s, hs, key⟩ := flight_position m rd wr rng hfa D hV i hi _ _ (hc.pending rd _ hrd)
  rcases hf with ⟨rfl, rfl⟩ | ⟨rfl, hl⟩
  · obtain ⟨s1, r1, -⟩ := hs.other (ty := .ChangeCipherSpecTy) (f := [1]) m (by decide) (by decide) hpre.incomplete
    exact key _ _ r1 (by rintro h e; cases e)
  · obtain ⟨s1, r1, -⟩ := hs.other (ty := .ApplicationDataTy) (f := f) m (by decide) hl hpre.incomplete
    exact key _ _ r1 (by rintro h e; cases e)

/-- C62: in place of the ChangeCipherSpec, a handshake message of any type, even a Finished. -/
theorem C62_no_change (m : Mode) (rd : Reader) (wr : Writer) (rng : Rng) (hfa : wr.faults = []) {random block rest : Bytes} (D : Draws rng.bytes random block rest)
    {V : ServerValues} (hV : V.Conforms) (h : Handshake) (ty : UInt8) (body more : Bytes) (hl : body.length < 2 ^ 24)
    (hd : (TlsItem.read (α := Handshake)).run (handshakeBytes ty body) = (.ok h, [])) (fs : List Bytes)
    (hc : Cuts fs (V.first 4 ++ (handshakeBytes ty body ++ more))) (l : List Sym) (hrd : rd.stream = ofBytes (fs.flatMap (recordBytes 22 3 3)) ++ l) :
    (TlsClient.new m rd wr rng).1 = .err .UnexpectedMessage := by
  obtain ⟨s, master, msgs, fin, c, rfl, h1, h2, -⟩ := change_position m rd wr rng hfa D hV rfl _ l (hc.pending rd l hrd)
  obtain ⟨s1, r1, -⟩ := h2.take m ⟨ty, body, hl, rfl, hd⟩
  refine new_result hfa (c := { c with reader := s1 }) ?_
  rw [h1, readFinished, St.bind_of_err (onReader_ok (readChangeCipherSpec_other r1 (by simp)))]

/-- C62: in place of the ChangeCipherSpec, application data. -/
theorem C62_early_data (m : Mode) (rd : Reader) (wr : Writer) (rng : Rng) (hfa : wr.faults = []) {random block rest : Bytes} (D : Draws rng.bytes random block rest)
    {V : ServerValues} (hV : V.Conforms) (pre : Bytes) (hpre : Unfinished pre) (f : Bytes) (hf : f.length ≤ 2 ^ 14) (fs : List Bytes) (hc : Cuts fs (V.first 4 ++ pre))
    (l : List Sym) (hrd : rd.stream = ofBytes (fs.flatMap (recordBytes 22 3 3)) ++ (ofBytes (recordBytes 23 3 3 f) ++ l)) :
    (TlsClient.new m rd wr rng).1 = .err .UnexpectedMessage := by
  obtain ⟨s, master, msgs, fin, c, rfl, h1, h2, -⟩ := change_position m rd wr rng hfa D hV rfl _ _ (hc.pending rd _ hrd)
  obtain ⟨s1, r1, -⟩ := h2.other (ty := .ApplicationDataTy) (f := f) m (by decide) hf hpre.incomplete
  refine new_result hfa (c := { c with reader := s1 }) ?_
  rw [h1, readFinished, St.bind_of_err (onReader_ok (readChangeCipherSpec_other r1 (by simp)))]

/-- C62: in place of the Finished, another handshake message in protected records; `pre` is the part of it that came before the ChangeCipherSpec. -/
theorem C62_finished (m : Mode) (rd : Reader) (wr : Writer) (rng : Rng) (hfa : wr.faults = []) {random block rest : Bytes} (D : Draws rng.bytes random block rest)
    {V : ServerValues} (hV : V.Conforms) {S : Session} (hS : S = V.session random (clientPoint block)) (h : Handshake) (ty : UInt8) (body pre post more : Bytes)
    (hl : body.length < 2 ^ 24) (hd : (TlsItem.read (α := Handshake)).run (handshakeBytes ty body) = (.ok h, [])) (hty : ty ≠ 20) (hpp : pre ++ post = handshakeBytes ty body)
    (hpost : post ≠ []) (fs1 fs2 : List Bytes) (h1 : Cuts fs1 (V.first 4 ++ pre)) (h2 : Cuts fs2 (post ++ more)) (l : List Sym)
    (hrd : rd.stream = ofBytes (serverWire S fs1 fs2) ++ l) : (TlsClient.new m rd wr rng).1 = .err .UnexpectedMessage := by
  obtain ⟨s, g1, g2, g3, g4, g5, key⟩ := finished_position m rd wr rng hfa D hV hS pre (Unfinished.incomplete ⟨ty, body, post, hl, hpp, hpost⟩)
    (ofBytes (protectedRecords S.keys.serverKey S.keys.serverIv 22 0 fs2) ++ l) (h1.pending rd _ (by rw [hrd, serverWire]; simp only [ofBytes_append, List.append_assoc]))
  obtain ⟨w, sent, w', hi, hm⟩ := keyed_incoming m s g4 g5 g3 .HandshakeTy h2.1.le (by have := h2.2.1; omega) l g1
  obtain ⟨hrec, hpay⟩ := h2.1.records hm
  obtain ⟨_, _, s1, r1, -⟩ := hi.readFramed m (fun rc h => ⟨(hrec rc h).1, (hrec rc h).2.1⟩) ⟨ty, body, hl, rfl, hd⟩ (bs := more) (by
    rw [show (keyed m s S.keys.serverKey).handshakeBuffer.buf = s.handshakeBuffer.buf from rfl, g2, hpay, h2.2.2, ← List.append_assoc, hpp])
  refine key _ _ r1 ?_
  rintro d e
  cases e
  exact hty (typeOf_read hd).symm

/-- C62: in place of the Finished, a protected ChangeCipherSpec or protected application data. -/
theorem C62_before_finished (m : Mode) (rd : Reader) (wr : Writer) (rng : Rng) (hfa : wr.faults = []) {random block rest : Bytes} (D : Draws rng.bytes random block rest)
    {V : ServerValues} (hV : V.Conforms) {S : Session} (hS : S = V.session random (clientPoint block)) (pre : Bytes) (hpre : Unfinished pre) (ty : UInt8) (f : Bytes)
    (hf : ty = 20 ∧ f = [1] ∨ ty = 23 ∧ f.length ≤ 2 ^ 14) (fs : List Bytes) (hc : Cuts fs (V.first 4 ++ pre)) (l : List Sym)
    (hrd : rd.stream = ofBytes (fs.flatMap (recordBytes 22 3 3) ++ (recordBytes 20 3 3 [1] ++ protectedRecord S.keys.serverKey S.keys.serverIv 0 ty f)) ++ l) :
    (TlsClient.new m rd wr rng).1 = .err .UnexpectedMessage := by
  rcases hf with ⟨rfl, rfl⟩ | ⟨rfl, hl⟩
  · exact protected_other m rd wr rng hfa D hV hS pre hpre .ChangeCipherSpecTy [1] (by intro h; cases h) (by decide) fs hc l hrd
  · exact protected_other m rd wr rng hfa D hV hS pre hpre .ApplicationDataTy f (by intro h; cases h) hl fs hc l hrd

/-! ### C63 -/

/-- The payload of an alert record. -/
def alertPayload (a : Alert) : Bytes := [levelNumber a.level, alertNumber a.description]

theorem alertMessage_payload (a : Alert) : alertMessage (alertPayload a) = .ok (.AlertMessage a) := by
  obtain ⟨lv, d⟩ := a
  cases lv <;> cases d <;> rfl

/-- Partial C63 (missing: the ChangeCipherSpec, see below): an alert during the flight is reported as AlertReceived. -/
theorem C63_flight_partial (m : Mode) (rd : Reader) (wr : Writer) (rng : Rng) (hfa : wr.faults = []) {random block rest : Bytes} (D : Draws rng.bytes random block rest)
    {V : ServerValues} (hV : V.Conforms) (i : Nat) (hi : i < 4) (pre : Bytes) (hpre : Unfinished pre) (a : Alert) (fs : List Bytes) (hc : Cuts fs (V.first i ++ pre)) (l : List Sym)
    (hrd : rd.stream = ofBytes (fs.flatMap (recordBytes 22 3 3)) ++ (ofBytes (recordBytes 21 3 3 (alertPayload a)) ++ l)) :
    (TlsClient.new m rd wr rng).1 = .err .AlertReceived := by
  obtain ⟨s, hs, key⟩ := flight_position m rd wr rng hfa D hV i hi _ _ (hc.pending rd _ hrd)
  obtain ⟨s1, r1, -⟩ := hs.other (ty := .AlertTy) (f := alertPayload a) m (by decide) (by simp [alertPayload]) hpre.incomplete
  rw [show recordMessage ⟨.AlertTy, 3, 3, alertPayload a⟩ = .ok (.AlertMessage a) from alertMessage_payload a] at r1
  exact key _ _ r1 (by rintro h e; cases e)

/-- Partial C63: a protected alert in place of the Finished is reported as AlertReceived. -/
theorem C63_finished_partial (m : Mode) (rd : Reader) (wr : Writer) (rng : Rng) (hfa : wr.faults = []) {random block rest : Bytes} (D : Draws rng.bytes random block rest)
    {V : ServerValues} (hV : V.Conforms) {S : Session} (hS : S = V.session random (clientPoint block)) (pre : Bytes) (hpre : Unfinished pre) (a : Alert) (fs : List Bytes)
    (hc : Cuts fs (V.first 4 ++ pre)) (l : List Sym)
    (hrd : rd.stream = ofBytes (fs.flatMap (recordBytes 22 3 3) ++ (recordBytes 20 3 3 [1] ++ protectedRecord S.keys.serverKey S.keys.serverIv 0 21 (alertPayload a))) ++ l) :
    (TlsClient.new m rd wr rng).1 = .err .AlertReceived := by
  have := protected_other m rd wr rng hfa D hV hS pre hpre .AlertTy (alertPayload a) (by intro h; cases h) (by simp [alertPayload]) fs hc l hrd
  rw [this, show recordMessage ⟨.AlertTy, 3, 3, alertPayload a⟩ = .ok (.AlertMessage a) from alertMessage_payload a]
  rfl

/-- C63 is false of an alert in place of the ChangeCipherSpec: this is where a server reports that it does not accept the client's key exchange or Finished, and
the client reports UnexpectedMessage. -/
theorem C63_alert_lost (m : Mode) (rd : Reader) (wr : Writer) (rng : Rng) (hfa : wr.faults = []) {random block rest : Bytes} (D : Draws rng.bytes random block rest)
    {V : ServerValues} (hV : V.Conforms) (pre : Bytes) (hpre : Unfinished pre) (a : Alert) (fs : List Bytes) (hc : Cuts fs (V.first 4 ++ pre)) (l : List Sym)
    (hrd : rd.stream = ofBytes (fs.flatMap (recordBytes 22 3 3)) ++ (ofBytes (recordBytes 21 3 3 (alertPayload a)) ++ l)) :
    (TlsClient.new m rd wr rng).1 = .err .UnexpectedMessage := by
  obtain ⟨s, master, msgs, fin, c, rfl, h1, h2, -⟩ := change_position m rd wr rng hfa D hV rfl _ _ (hc.pending rd _ hrd)
  obtain ⟨s1, r1, -⟩ := h2.other (ty := .AlertTy) (f := alertPayload a) m (by decide) (by simp [alertPayload]) hpre.incomplete
  rw [show recordMessage ⟨.AlertTy, 3, 3, alertPayload a⟩ = .ok (.AlertMessage a) from alertMessage_payload a] at r1
  refine new_result hfa (c := { c with reader := s1 }) ?_
  rw [h1, readFinished, St.bind_of_err (onReader_ok (readChangeCipherSpec_other r1 (by simp)))]

/-! ### The hypotheses are met -/

/-- A transport that hands out one byte at a time. -/
def byteByByte (b : Bytes) : Reader := ⟨b.map fun x => .data [x]⟩

theorem stream_byteByByte (b : Bytes) : (byteByByte b).stream = ofBytes b := by
  rw [byteByByte, Reader.stream, ofBytes, List.flatMap_map, List.map_eq_flatMap]
  rfl

theorem first_le {V : ServerValues} (random : Bytes) (P : Spec.P256.curve.Point) (i : Nat) : (V.first i).length ≤ (V.session random P).flight.length := by
  rw [← first_four]
  have h : V.first 4 = V.first i ++ (V.messages.drop i).flatten := by
    rw [ServerValues.first, ServerValues.first, ← List.flatten_append, List.take_append_drop]; rfl
  rw [h, List.length_append]
  omega

/-- After any number of messages of any conforming server, a HelloRequest, in one stream of records. -/
example (random : Bytes) (P : Spec.P256.curve.Point) (V : ServerValues) (hV : V.Conforms) (i : Nat) : ∃ (rd : Reader) (fs : List Bytes),
    (TlsItem.read (α := Handshake)).run (handshakeBytes 0 []) = (.ok (.hello_request {}), []) ∧ Cuts fs (V.first i ++ (handshakeBytes 0 [] ++ [])) ∧
    rd.stream = ofBytes (fs.flatMap (recordBytes 22 3 3)) ++ [] :=
  ⟨byteByByte ((chunks 16384 (V.first i ++ (handshakeBytes 0 [] ++ []))).flatMap (recordBytes 22 3 3)), _, rfl,
    cuts_exists _ (by
      have := flight_length hV (S := V.session random P) rfl
      have := first_le (V := V) random P i
      rw [List.length_append]
      have : (handshakeBytes 0 [] ++ [] : Bytes).length = 4 := rfl
      omega), by rw [stream_byteByByte]; exact (List.append_nil _).symm⟩

/-- And an alert, with nothing before it. -/
example (random : Bytes) (P : Spec.P256.curve.Point) (V : ServerValues) (hV : V.Conforms) (i : Nat) (a : Alert) : Unfinished [] ∧ ∃ (rd : Reader) (fs : List Bytes),
    Cuts fs (V.first i ++ []) ∧ rd.stream = ofBytes (fs.flatMap (recordBytes 22 3 3)) ++ (ofBytes (recordBytes 21 3 3 (alertPayload a)) ++ []) :=
  ⟨⟨0, [], handshakeBytes 0 [], by decide, rfl, by simp [handshakeBytes]⟩,
    byteByByte ((chunks 16384 (V.first i ++ [])).flatMap (recordBytes 22 3 3) ++ recordBytes 21 3 3 (alertPayload a)), _,
    cuts_exists _ (by
      have := flight_length hV (S := V.session random P) rfl
      have := first_le (V := V) random P i
      rw [List.append_nil]
      omega), by rw [stream_byteByByte, ← List.append_assoc, ← ofBytes_append]; exact (List.append_nil _).symm⟩

end Husk
