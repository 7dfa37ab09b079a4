import Verif.Model.Describe
import Verif.Props.Outcome
import Verif.Props.HandshakeOrder
import Verif.Props.Forgery
/-! C118: the error of `TlsClient::new` tells which alert the server has sent. -/

namespace Husk

open Item Spec TlsReader TlsClient

/-! ### Specification -/

/-- The next record on `s` that is not part of a handshake message is an alert with the bytes `f`. -/
inductive AlertComes : TlsReader → Bytes → Prop
  | here {s s' : TlsReader} {r : Record} : MessageCut s.handshakeBuffer.buf → Took s [r] s' → s'.handshakeBuffer = s.handshakeBuffer → r.contentType = .AlertTy → AlertComes s r.fragment
  | more {s s1 : TlsReader} {r : Record} {f : Bytes} : MessageCut s.handshakeBuffer.buf → Took s [r] s1 → r.contentType = .HandshakeTy → r.fragment ≠ [] →
      s1.handshakeBuffer.buf = s.handshakeBuffer.buf ++ r.fragment → AlertComes s1 f → AlertComes s f

/-- `s` is the reader while the client waits for a handshake message, the server sending what is on `rd` and the random bytes of the client being `cr`, then `rest`. -/
inductive Waits (m : Mode) (rd : Reader) (cr rest : Bytes) : TlsReader → Prop
  | hello : Waits m rd cr rest (TlsReader.new rd)
  | certificate {sh : ServerHello} {s1 : TlsReader} : Comes (TlsReader.new rd) (.ok (.HandshakeMessage (.server_hello sh))) s1 → Agreed sh → Waits m rd cr rest s1
  | keyExchange {sh : ServerHello} {certs : CertificateList} {s1 s2 : TlsReader} : Comes (TlsReader.new rd) (.ok (.HandshakeMessage (.server_hello sh))) s1 → Agreed sh →
      Comes s1 (.ok (.HandshakeMessage (.certificate certs))) s2 → Waits m rd cr rest s2
  | done {sh : ServerHello} {certs : CertificateList} {ske : ObscureData} {s1 s2 s3 : TlsReader} {k : Bytes × Bytes} {rng' : Rng} :
      Comes (TlsReader.new rd) (.ok (.HandshakeMessage (.server_hello sh))) s1 → Agreed sh → Comes s1 (.ok (.HandshakeMessage (.certificate certs))) s2 →
      Comes s2 (.ok (.HandshakeMessage (.server_key_exchange ske))) s3 → (Ecdhe.computeKeys m ske.data).run ⟨rest⟩ = (.ok k, rng') → Waits m rd cr rest s3
  | finished {f : ServerFlight} {s s1 : TlsReader} {rng' : Rng} : FlightComes m rd rest f s rng' →
      Comes { s with iv := some (f.keys cr).serverIv } (.ok .ChangeCipherSpecMessage) s1 → Waits m rd cr rest (keyed m s1 (f.keys cr).serverKey)

/-- `s` is the reader while the client waits for the ChangeCipherSpec. -/
def WaitsChange (m : Mode) (rd : Reader) (cr rest : Bytes) (s : TlsReader) : Prop :=
  ∃ f s0 rng', FlightComes m rd rest f s0 rng' ∧ s = { s0 with iv := some (f.keys cr).serverIv }

/-- The error that tells of the alert with the bytes `f`: the kind and the text. -/
inductive Told (f : Bytes) : TlsErrorKind → Desc → Prop
  | known (level : AlertLevel) (d : AlertDescription) : [levelNumber level, alertNumber d] <+: f → Told f .AlertReceived (.alert d)
  | unknown : 2 ≤ f.length → (∀ level d, ¬ [levelNumber level, alertNumber d] <+: f) → Told f .UnexpectedMessage (.unknownAlert f)

/-- C118: whenever the client waits for a message of the server and the server sends an alert of at least two bytes instead, the error tells which. -/
def TellsAlerts : Prop := ∀ (m : Mode) (rd : Reader) (wr : Writer) (cr rest : Bytes) (s : TlsReader) (f : Bytes), countBytes rd.stream + 1 < 2 ^ 64 → wr.faults = [] → cr.length = 32 →
  (Waits m rd cr rest s ∨ WaitsChange m rd cr rest s) → AlertComes s f → 2 ≤ f.length →
  ∃ k d, Told f k d ∧ (TlsClient.new m rd wr ⟨cr ++ rest⟩).1 = .err k ∧ newDesc m rd wr ⟨cr ++ rest⟩ = some d

/-! ### Without the texts this is the model of the client -/

namespace DSt

theorem bind_st (x : DSt σ α) (f : α → DSt σ β) : (x >>= f).st = (x.st >>= fun a => (f a).st) := rfl
theorem pure_st (a : α) : (Pure.pure a : DSt σ α).st = Pure.pure a := rfl

theorem desc_of_ok {x : DSt σ α} {f : α → DSt σ β} {s s' : σ} {a : α} (h : x.st.run s = (.ok a, s')) : (x >>= f).desc s = (f a).desc s' := by
  show (match x.st.run s with | (.ok a, s') => (f a).desc s' | _ => x.desc s) = _
  rw [h]

theorem desc_of_err {x : DSt σ α} {f : α → DSt σ β} {s s' : σ} {k : TlsErrorKind} (h : x.st.run s = (.err k, s')) : (x >>= f).desc s = x.desc s := by
  show (match x.st.run s with | (.ok a, s') => (f a).desc s' | _ => x.desc s) = _
  rw [h]

theorem desc_of_not_ok {x : DSt σ α} {f : α → DSt σ β} {s s' : σ} {r : Res α} (h : x.st.run s = (r, s')) (hr : ∀ a, r ≠ .ok a) : (x >>= f).desc s = x.desc s := by
  show (match x.st.run s with | (.ok a, s') => (f a).desc s' | _ => x.desc s) = _
  rw [h]
  cases r with
  | ok a => exact absurd rfl (hr a)
  | _ => rfl

end DSt

theorem ccsMessageD_st (f : Bytes) : (ccsMessageD f).st = St.lift (ccsMessage f) := by
  unfold ccsMessageD ccsMessage
  split <;> rfl

theorem alertMessageD_st (f : Bytes) : (alertMessageD f).st = St.lift (alertMessage f) := by
  unfold alertMessageD alertMessage
  split
  · rfl
  split
  · rfl
  dsimp only
  cases (TlsEnum.ofCode (f.getD 0 0).toNat : Option AlertLevel) <;> cases (TlsEnum.ofCode (f.getD 1 0).toNat : Option AlertDescription) <;> rfl

theorem messageStepD_st (m : Mode) : (messageStepD m).st = messageStep m := by
  unfold messageStepD messageStep
  rw [DSt.bind_st]
  congr 1
  funext r
  cases r.contentType with
  | ChangeCipherSpecTy => show ((ccsMessageD r.fragment).st >>= fun _ => _) = _; rw [ccsMessageD_st]; rfl
  | AlertTy => show ((alertMessageD r.fragment).st >>= fun _ => _) = _; rw [alertMessageD_st]; rfl
  | HandshakeTy =>
    dsimp only
    split
    · rfl
    · rw [DSt.bind_st]
      congr 1
      funext _
      rw [DSt.bind_st]
      congr 1
      funext o
      cases o <;> rfl
  | ApplicationDataTy => rfl

theorem messageLoopD_st (m : Mode) (fuel : Nat) : (messageLoopD m fuel).st = messageLoop m fuel := by
  induction fuel with
  | zero => rfl
  | succ fuel ih =>
    rw [messageLoopD, messageLoop, DSt.bind_st, messageStepD_st]
    congr 1
    funext o
    cases o with
    | some msg => rfl
    | none => exact ih

theorem readMessageD_st (m : Mode) : (readMessageD m).st = readMessage m := by
  rw [readMessageD, readMessage, DSt.bind_st]
  congr 1
  funext o
  cases o with
  | some h => rfl
  | none =>
    dsimp only
    rw [DSt.bind_st]
    congr 1
    funext s
    exact messageLoopD_st m _

theorem readHandshakeD_st (m : Mode) : (readHandshakeD m).st = readHandshake m := by
  rw [readHandshakeD, readHandshake, DSt.bind_st, readMessageD_st]
  congr 1
  funext x
  cases x <;> rfl

theorem readChangeCipherSpecD_st (m : Mode) : (readChangeCipherSpecD m).st = readChangeCipherSpec m := by
  rw [readChangeCipherSpecD, readChangeCipherSpec, DSt.bind_st, readMessageD_st]
  congr 1
  funext x
  cases x <;> rfl

theorem expectServerHelloD_st (m : Mode) : (expectServerHelloD m).st = expectServerHello m := by
  rw [expectServerHelloD, expectServerHello, DSt.bind_st, readHandshakeD_st]; congr 1; funext x; cases x <;> rfl
theorem expectCertificateD_st (m : Mode) : (expectCertificateD m).st = expectCertificate m := by
  rw [expectCertificateD, expectCertificate, DSt.bind_st, readHandshakeD_st]; congr 1; funext x; cases x <;> rfl
theorem expectServerKeyExchangeD_st (m : Mode) : (expectServerKeyExchangeD m).st = expectServerKeyExchange m := by
  rw [expectServerKeyExchangeD, expectServerKeyExchange, DSt.bind_st, readHandshakeD_st]; congr 1; funext x; cases x <;> rfl
theorem expectServerHelloDoneD_st (m : Mode) : (expectServerHelloDoneD m).st = expectServerHelloDone m := by
  rw [expectServerHelloDoneD, expectServerHelloDone, DSt.bind_st, readHandshakeD_st]; congr 1; funext x; cases x <;> rfl
theorem expectFinishedD_st (m : Mode) : (expectFinishedD m).st = expectFinished m := by
  rw [expectFinishedD, expectFinished, DSt.bind_st, readHandshakeD_st]; congr 1; funext x; cases x <;> rfl

theorem onReaderD_st (x : DSt TlsReader α) : (onReaderD x).st = onReader x.st := rfl

theorem checkServerHelloD_st (sh : ServerHello) : (checkServerHelloD sh).st = St.lift (checkServerHello sh) := by
  unfold checkServerHelloD checkServerHello
  split
  · rfl
  split
  · rfl
  split <;> rfl

theorem lift_bind_eq {σ α β : Type} (x : Res α) (f : α → Res β) : (St.lift (x >>= f) : St σ β) = St.lift x >>= fun a => St.lift (f a) := by
  cases x <;> rfl

theorem checkFinishedD_st (m : Mode) (master msgs : Bytes) (fin : Handshake) (v : VerifyData) : (checkFinishedD m master msgs fin v).st = St.lift (checkFinished m master msgs fin v) := by
  unfold checkFinishedD checkFinished
  rw [lift_bind_eq, DSt.bind_st]
  congr 1
  funext b
  rw [lift_bind_eq, DSt.bind_st]
  congr 1
  funext b
  rw [lift_bind_eq, DSt.bind_st]
  congr 1
  funext ok
  cases ok <;> rfl

theorem readFlightD_st (m : Mode) : (readFlightD m).st = readFlight m := by
  unfold readFlightD readFlight
  simp only [DSt.bind_st, onReaderD_st, expectServerHelloD_st, expectCertificateD_st, expectServerKeyExchangeD_st, expectServerHelloDoneD_st, checkServerHelloD_st, DSt.pure_st]
  rfl

theorem readFinishedD_st (m : Mode) (master key msgs : Bytes) (fin : Handshake) : (readFinishedD m master key msgs fin).st = readFinished m master key msgs fin := by
  unfold readFinishedD readFinished
  simp only [DSt.bind_st, onReaderD_st, expectFinishedD_st, readChangeCipherSpecD_st, checkFinishedD_st]
  rfl

/-- The model with the texts is the model of the handshake. -/
theorem C118_same_handshake (m : Mode) : (handshakeD m).st = handshake m := by
  unfold handshakeD handshake
  simp only [DSt.bind_st, readFlightD_st, readFinishedD_st]
  rfl

/-! ### Proof: the texts of `read_message` -/

/-- The text does not depend on how the transport cuts what it gives. -/
def DRespects (x : DSt TlsReader α) : Prop := ∀ s t, Same s t → x.desc s = x.desc t

theorem DRespects.plain (x : St TlsReader α) : DRespects (DSt.plain x) := fun _ _ _ => rfl
theorem DRespects.pure (a : α) : DRespects (Pure.pure a : DSt TlsReader α) := fun _ _ _ => rfl
theorem DRespects.fail (k : TlsErrorKind) (d : Desc) : DRespects (DSt.fail k d : DSt TlsReader α) := fun _ _ _ => rfl

theorem DRespects.bind {x : DSt TlsReader α} {f : α → DSt TlsReader β} (hx : Respects Same x.st) (dx : DRespects x) (df : ∀ a, DRespects (f a)) : DRespects (x >>= f) := by
  intro s t h
  obtain ⟨h1, h2⟩ := hx s t h
  have h3 := dx s t h
  rcases e1 : x.st.run s with ⟨a, s'⟩
  rcases e2 : x.st.run t with ⟨b, t'⟩
  rw [e1, e2] at h1 h2
  cases h1
  by_cases ha : ∃ v, a = .ok v
  · obtain ⟨v, rfl⟩ := ha
    rw [DSt.desc_of_ok e1, DSt.desc_of_ok e2]
    exact df v _ _ h2
  · have ha' : ∀ v, a ≠ .ok v := fun v hv => ha ⟨v, hv⟩
    rw [DSt.desc_of_not_ok e1 ha', DSt.desc_of_not_ok e2 ha']
    exact h3

theorem DRespects.plain_bind {x : St TlsReader α} {f : α → DSt TlsReader β} (hx : Respects Same x) (df : ∀ a, DRespects (f a)) : DRespects (DSt.plain x >>= f) :=
  DRespects.bind hx (DRespects.plain x) df

theorem messageStepD_respects (m : Mode) : DRespects (messageStepD m) := by
  refine DRespects.plain_bind (readRecord_respects m) fun r => ?_
  cases r.contentType with
  | ChangeCipherSpecTy =>
    refine DRespects.bind ?_ ?_ fun _ => DRespects.pure _
    · rw [ccsMessageD_st]; exact Respects.lift _
    · unfold ccsMessageD; split
      · exact DRespects.fail _ _
      · exact DRespects.pure _
  | AlertTy =>
    refine DRespects.bind ?_ ?_ fun _ => DRespects.pure _
    · rw [alertMessageD_st]; exact Respects.lift _
    · intro s t _
      unfold alertMessageD
      split
      · rfl
      split
      · rfl
      dsimp only
      split <;> rfl
  | HandshakeTy =>
    dsimp only
    split
    · exact DRespects.fail _ _
    · refine DRespects.plain_bind (onBuffer_respects _) fun _ => ?_
      refine DRespects.plain_bind (onBuffer_respects _) fun h => ?_
      cases h <;> exact DRespects.pure _
  | ApplicationDataTy => exact DRespects.pure _

theorem messageLoopD_respects (m : Mode) (fuel : Nat) : DRespects (messageLoopD m fuel) := by
  induction fuel with
  | zero => exact DRespects.plain _
  | succ fuel ih =>
    refine DRespects.bind (by rw [messageStepD_st]; exact messageStep_respects m) (messageStepD_respects m) fun o => ?_
    cases o with
    | some msg => exact DRespects.pure _
    | none => exact ih

theorem readMessageD_cut (m : Mode) {s : TlsReader} (h : MessageCut s.handshakeBuffer.buf) : (readMessageD m).desc s = (messageLoopD m (s.reader.bytes + 1)).desc s := by
  have hg : HandshakeBuffer.getMessage.run s.handshakeBuffer = (.ok none, s.handshakeBuffer) := getMessage_of_cut h
  have h1 : (onBuffer HandshakeBuffer.getMessage).run s = (.ok none, s) := by
    simp only [onBuffer, St.zoom_run, hg]
  rw [readMessageD, DSt.desc_of_ok (x := DSt.plain (onBuffer HandshakeBuffer.getMessage)) h1]
  rfl

theorem readMessageD_respects (m : Mode) : DRespects (readMessageD m) := by
  refine DRespects.plain_bind (onBuffer_respects _) fun o => ?_
  cases o with
  | some h => exact DRespects.pure _
  | none =>
    intro s t h
    show (messageLoopD m (s.reader.bytes + 1)).desc s = (messageLoopD m (t.reader.bytes + 1)).desc t
    rw [Reader.bytes_eq, Reader.bytes_eq, h.1]
    exact messageLoopD_respects m _ s t h

theorem messageLoopD_enough (m : Mode) (f g : Nat) (s : TlsReader) (hf : countBytes s.reader.stream < f) (hg : countBytes s.reader.stream < g) :
    (messageLoopD m f).desc s = (messageLoopD m g).desc s := by
  induction f generalizing g s with
  | zero => omega
  | succ f ih =>
    cases g with
    | zero => omega
    | succ g =>
      rw [messageLoopD, messageLoopD]
      rcases hr : (messageStep m).run s with ⟨x, s1⟩
      have hr' : (messageStepD m).st.run s = (x, s1) := by rw [messageStepD_st]; exact hr
      cases x with
      | ok o =>
        rw [DSt.desc_of_ok hr', DSt.desc_of_ok hr']
        cases o with
        | some msg => rfl
        | none =>
          obtain ⟨rec, ht, -⟩ := messageStep_none hr
          have := TlsReader.Took.count ht
          simp only [List.length_singleton] at this
          exact ih g s1 (by omega) (by omega)
      | _ => rw [DSt.desc_of_not_ok hr' (by simp), DSt.desc_of_not_ok hr' (by simp)]

theorem readMessageD_step (m : Mode) {s : TlsReader} (h : MessageCut s.handshakeBuffer.buf) :
    (readMessageD m).desc s = ((messageStepD m) >>= fun o => match o with | some msg => pure msg | none => messageLoopD m s.reader.bytes : DSt TlsReader Message).desc s := by
  rw [readMessageD_cut m h, messageLoopD]
  rfl

theorem messageStepD_record (m : Mode) {s s1 : TlsReader} {r : Record} (hr : (readRecord m).run s = (.ok r, s1)) (hty : r.contentType = .HandshakeTy) (hne : r.fragment ≠ []) :
    (messageStepD m).desc s = none := by
  rw [messageStepD, DSt.desc_of_ok (x := DSt.plain (readRecord m)) hr]
  simp only [hty]
  rw [if_neg (by simpa using hne)]
  rw [DSt.desc_of_ok (x := DSt.plain (onBuffer (HandshakeBuffer.addRecord r.fragment))) (s' := { s1 with handshakeBuffer := ⟨s1.handshakeBuffer.buf ++ r.fragment⟩ }) (a := ()) rfl]
  rcases hg : (onBuffer HandshakeBuffer.getMessage).run { s1 with handshakeBuffer := ⟨s1.handshakeBuffer.buf ++ r.fragment⟩ } with ⟨y, t⟩
  cases y with
  | ok o =>
    rw [DSt.desc_of_ok (x := DSt.plain (onBuffer HandshakeBuffer.getMessage)) hg]
    cases o <;> rfl
  | _ => rw [DSt.desc_of_not_ok (x := DSt.plain (onBuffer HandshakeBuffer.getMessage)) hg (by simp)]; rfl

/-- A handshake record only adds to what has been received, for the texts too. -/
theorem readMessageD_more (m : Mode) {s s1 : TlsReader} {r : Record} (h : MessageCut s.handshakeBuffer.buf) (hr : (readRecord m).run s = (.ok r, s1)) (hty : r.contentType = .HandshakeTy)
    (hne : r.fragment ≠ []) : (readMessageD m).desc s = (readMessageD m).desc { s1 with handshakeBuffer := ⟨s1.handshakeBuffer.buf ++ r.fragment⟩ } := by
  rw [readMessageD_step m h]
  have hcons := readRecord_consumes hr
  rcases hg : HandshakeBuffer.getMessage.run ⟨s1.handshakeBuffer.buf ++ r.fragment⟩ with ⟨y, b⟩
  have hg' : (onBuffer HandshakeBuffer.getMessage).run { s1 with handshakeBuffer := ⟨s1.handshakeBuffer.buf ++ r.fragment⟩ } = (y, { s1 with handshakeBuffer := b }) := by
    simp only [onBuffer, St.zoom_run, hg]
  have ha : (onBuffer (HandshakeBuffer.addRecord r.fragment)).run s1 = (.ok (), { s1 with handshakeBuffer := ⟨s1.handshakeBuffer.buf ++ r.fragment⟩ }) := rfl
  have hno := messageStepD_record m hr hty hne
  have bad : ∀ x, (∀ o, x ≠ .ok o) → (messageStep m).run s = (x, { s1 with handshakeBuffer := b }) → (∀ o, y ≠ .ok o) →
      ((messageStepD m) >>= fun o => match o with | some msg => pure msg | none => messageLoopD m s.reader.bytes : DSt TlsReader Message).desc s =
        (readMessageD m).desc { s1 with handshakeBuffer := ⟨s1.handshakeBuffer.buf ++ r.fragment⟩ } := by
    intro x hx hs hy
    rw [DSt.desc_of_not_ok (by rw [messageStepD_st]; exact hs) hx, hno, readMessageD, DSt.desc_of_not_ok (x := DSt.plain (onBuffer HandshakeBuffer.getMessage)) hg' hy]
    rfl
  cases y with
  | ok o =>
    rw [DSt.desc_of_ok (by rw [messageStepD_st]; exact messageStep_handshake hr hty hne hg), readMessageD, DSt.desc_of_ok (x := DSt.plain (onBuffer HandshakeBuffer.getMessage)) hg']
    cases o with
    | some msg => rfl
    | none =>
      have hb : b = ⟨s1.handshakeBuffer.buf ++ r.fragment⟩ := by
        have := getMessage_of_cut (getMessage_cut hg)
        rw [hg] at this
        exact (Prod.mk.inj this).2
      subst hb
      show (messageLoopD m s.reader.bytes).desc _ = (messageLoopD m (s1.reader.bytes + 1)).desc _
      refine messageLoopD_enough m _ _ _ ?_ ?_
      · show countBytes s1.reader.stream < s.reader.bytes
        rw [Reader.bytes_eq]; omega
      · show countBytes s1.reader.stream < s1.reader.bytes + 1
        rw [Reader.bytes_eq]; omega
  | err k =>
    refine bad (.err k) (by simp) ?_ (by simp)
    rw [messageStep, St.bind_of_ok hr]
    simp only [hty]
    rw [if_neg (by simpa using hne), St.bind_of_ok ha, St.bind_of_err hg']
  | panic =>
    refine bad .panic (by simp) ?_ (by simp)
    rw [messageStep, St.bind_of_ok hr]
    simp only [hty]
    rw [if_neg (by simpa using hne), St.bind_of_ok ha, St.bind_of_panic hg']
  | diverge =>
    refine bad .diverge (by simp) ?_ (by simp)
    rw [messageStep, St.bind_of_ok hr]
    simp only [hty]
    rw [if_neg (by simpa using hne), St.bind_of_ok ha, St.bind_of_diverge hg']

theorem alertMessageD_unknown {f : Bytes} (h2 : 2 ≤ f.length) (hno : ∀ level d, ¬ [levelNumber level, alertNumber d] <+: f) (s : TlsReader) :
    (alertMessageD f).desc s = some (.unknownAlert f) ∧ (alertMessageD f).st.run s = (.err .UnexpectedMessage, s) := by
  rcases f with _ | ⟨x, _ | ⟨y, l⟩⟩
  · simp at h2
  · simp at h2
  · unfold alertMessageD
    rw [if_neg (by simp), if_neg (by simp)]
    simp only [List.getD_cons_zero, List.getD_cons_succ]
    cases e1 : (TlsEnum.ofCode x.toNat : Option AlertLevel) with
    | none => exact ⟨rfl, rfl⟩
    | some level =>
      cases e2 : (TlsEnum.ofCode y.toNat : Option AlertDescription) with
      | none => exact ⟨rfl, rfl⟩
      | some d =>
        refine absurd ?_ (hno level d)
        rw [(level_iff x level).mp e1, (description_iff y d).mp e2]
        exact ⟨l, rfl⟩

/-- What comes when an alert comes. -/
theorem AlertComes.known {s : TlsReader} {f : Bytes} (h : AlertComes s f) {level : AlertLevel} {d : AlertDescription} (hf : [levelNumber level, alertNumber d] <+: f) :
    ∃ s', Comes s (.ok (.AlertMessage ⟨level, d⟩)) s' := by
  induction h with
  | here hc ht hb hty => exact ⟨_, .message hc ht hb (.alert level d hty hf)⟩
  | more hc ht hty hne hb _ ih =>
    obtain ⟨s', ih⟩ := ih hf
    exact ⟨s', .more hc ht hty hne hb ih⟩

theorem AlertComes.unknown {s : TlsReader} {f : Bytes} (h : AlertComes s f) (hf : ∀ level d, ¬ [levelNumber level, alertNumber d] <+: f) :
    ∃ s', Comes s (.err .UnexpectedMessage) s' := by
  induction h with
  | here hc ht hb hty => exact ⟨_, .noMessage hc ht hb (Or.inr (Or.inl ⟨hty, hf⟩))⟩
  | more hc ht hty hne hb _ ih =>
    obtain ⟨s', ih⟩ := ih hf
    exact ⟨s', .more hc ht hty hne hb ih⟩

theorem AlertComes.text (m : Mode) {s : TlsReader} {f : Bytes} (h : AlertComes s f) (hr : Room s) (h2 : 2 ≤ f.length) (hf : ∀ level d, ¬ [levelNumber level, alertNumber d] <+: f) :
    (readMessageD m).desc s = some (.unknownAlert f) := by
  induction h with
  | @here s s' r hc ht hb hty =>
    obtain ⟨r', h1, -⟩ := ht.record (m := m) (fun _ => by unfold Room at hr; omega)
    have h3 := alertMessageD_unknown h2 hf { s with reader := r', readCount := s.readCount + 1 }
    have hst : (messageStep m).run s = (.err .UnexpectedMessage, { s with reader := r', readCount := s.readCount + 1 }) := by
      rw [messageStep, St.bind_of_ok h1]
      simp only [hty]
      have := h3.2
      rw [alertMessageD_st] at this
      rw [St.bind_of_err this]
    rw [readMessageD_step m hc, DSt.desc_of_err (by rw [messageStepD_st]; exact hst), messageStepD, DSt.desc_of_ok (x := DSt.plain (readRecord m)) h1]
    simp only [hty]
    rw [DSt.desc_of_err h3.2, h3.1]
  | @more s s1 r f hc ht hty hne hb _ ih =>
    obtain ⟨r', h1, g1, g2, g3, g4⟩ : ∃ r', (readRecord m).run s = (.ok r, { s with reader := r', readCount := s.readCount + 1 }) ∧ s1.reader.stream = r'.stream ∧
        s1.decryptor = s.decryptor ∧ s1.readCount = s.readCount + 1 ∧ s1.iv = s.iv := by
      obtain ⟨r', h1, h2⟩ := ht.record (m := m) (fun _ => by unfold Room at hr; omega)
      obtain ⟨g1, g2, g3, g4⟩ := took_same h2
      exact ⟨r', h1, g1, g2, g3, g4⟩
    rw [readMessageD_more m hc h1 hty hne, ← ih (Took.room ht 1 hr) h2 hf]
    exact readMessageD_respects m _ _ ⟨g1.symm, g2.symm, g3.symm, by cases hq : s1.handshakeBuffer; rw [hq] at hb; exact congrArg HandshakeBuffer.mk hb.symm, g4.symm⟩

/-- Where a handshake message is expected, the error tells of the alert. -/
theorem AlertComes.told (m : Mode) {s t : TlsReader} {f : Bytes} {k : TlsErrorKind} {d : Desc} (h : AlertComes s f) (hr : Room s) (ht : Same t s) (hT : Told f k d) :
    ∃ t', (readHandshake m).run t = (.err k, t') ∧ (readHandshakeD m).desc t = some d := by
  cases hT with
  | known level d hf =>
    obtain ⟨s', hc⟩ := h.known hf
    obtain ⟨t', g, -⟩ := hc.runs m hr ht
    exact ⟨t', by rw [readHandshake, St.bind_of_ok g]; rfl, by rw [readHandshakeD, DSt.desc_of_ok (by rw [readMessageD_st]; exact g)]; rfl⟩
  | unknown h2 hf =>
    obtain ⟨s', hc⟩ := h.unknown hf
    obtain ⟨t', g, -⟩ := hc.runs m hr ht
    refine ⟨t', by rw [readHandshake, St.bind_of_err g], ?_⟩
    rw [readHandshakeD, DSt.desc_of_err (by rw [readMessageD_st]; exact g), readMessageD_respects m _ _ ht, h.text m hr h2 hf]

/-! ### Proof: the handshake -/

/-- Waiting for a handshake message on `t` ends with the error `k` and the text `d`. -/
def Fails (m : Mode) (t : TlsReader) (k : TlsErrorKind) (d : Desc) : Prop := ∃ t', (readHandshake m).run t = (.err k, t') ∧ (readHandshakeD m).desc t = some d

/-- The same for a function of the client. -/
def Failing (x : DSt TlsClient α) (c : TlsClient) (k : TlsErrorKind) (d : Desc) : Prop := (∃ c', x.st.run c = (.err k, c')) ∧ x.desc c = some d

theorem Failing.bind {x : DSt TlsClient α} {f : α → DSt TlsClient β} {c : TlsClient} {k : TlsErrorKind} {d : Desc} (h : Failing x c k d) : Failing (x >>= f) c k d := by
  obtain ⟨⟨c', h1⟩, h2⟩ := h
  exact ⟨⟨c', by rw [DSt.bind_st, St.bind_of_err h1]⟩, by rw [DSt.desc_of_err h1, h2]⟩

theorem Failing.after {x : DSt TlsClient α} {f : α → DSt TlsClient β} {c c1 : TlsClient} {a : α} {k : TlsErrorKind} {d : Desc} (hx : x.st.run c = (.ok a, c1)) (h : Failing (f a) c1 k d) :
    Failing (x >>= f) c k d := by
  obtain ⟨⟨c', h1⟩, h2⟩ := h
  exact ⟨⟨c', by rw [DSt.bind_st, St.bind_of_ok hx, h1]⟩, by rw [DSt.desc_of_ok hx, h2]⟩

/-- All uses of `expect!` pass on the error of `read_handshake`. -/
theorem Fails.expect {m : Mode} {c : TlsClient} {k : TlsErrorKind} {d : Desc} (h : Fails m c.reader k d) (g : Handshake → DSt TlsReader α) : Failing (onReaderD (readHandshakeD m >>= g)) c k d := by
  obtain ⟨t', h1, h2⟩ := h
  have h1' : (readHandshakeD m).st.run c.reader = (.err k, t') := by rw [readHandshakeD_st]; exact h1
  refine ⟨⟨{ c with reader := t' }, ?_⟩, ?_⟩
  · rw [onReaderD_st]
    exact onReader_ok (by rw [DSt.bind_st, St.bind_of_err h1'])
  · show (readHandshakeD m >>= g).desc c.reader = _
    rw [DSt.desc_of_err h1', h2]

section
variable {m : Mode} {rd : Reader} {wr : Writer} {cr rest : Bytes} {k : TlsErrorKind} {d : Desc} {c : TlsClient} {s1 s2 s3 : TlsReader} {sh : ServerHello} {certs : CertificateList}
  {ske : ObscureData} {keys : Bytes × Bytes} {rng' : Rng}

theorem hello_read (h : (readMessage m).run c.reader = (.ok (.HandshakeMessage (.server_hello sh)), s1)) : (onReaderD (expectServerHelloD m)).st.run c = (.ok sh, { c with reader := s1 }) := by
  rw [onReaderD_st, expectServerHelloD_st]; exact onReader_ok (expectServerHello_iff.mpr h)

theorem hello_checked (ha : Agreed sh) (c : TlsClient) : (checkServerHelloD sh).st.run c = (.ok (), c) := by
  rw [checkServerHelloD_st, checkServerHello_eq, if_pos (show _ ∧ _ ∧ _ from ha)]; rfl

theorem certificate_read (h : (readMessage m).run c.reader = (.ok (.HandshakeMessage (.certificate certs)), s1)) :
    (onReaderD (expectCertificateD m)).st.run c = (.ok certs, { c with reader := s1 }) := by
  rw [onReaderD_st, expectCertificateD_st]; exact onReader_ok (expectCertificate_iff.mpr h)

theorem keyExchange_read (h : (readMessage m).run c.reader = (.ok (.HandshakeMessage (.server_key_exchange ske)), s1)) :
    (onReaderD (expectServerKeyExchangeD m)).st.run c = (.ok ske, { c with reader := s1 }) := by
  rw [onReaderD_st, expectServerKeyExchangeD_st]; exact onReader_ok (expectServerKeyExchange_iff.mpr h)

theorem flight_fails_hello (h : Fails m c.reader k d) : Failing (readFlightD m) c k d := (h.expect _).bind

theorem flight_fails_certificate (h1 : (readMessage m).run c.reader = (.ok (.HandshakeMessage (.server_hello sh)), s1)) (ha : Agreed sh) (h : Fails m s1 k d) : Failing (readFlightD m) c k d := by
  refine Failing.after (hello_read h1) (Failing.after (hello_checked ha _) (Failing.bind ?_))
  exact Fails.expect (c := { c with reader := s1 }) h _

theorem flight_fails_keyExchange (h1 : (readMessage m).run c.reader = (.ok (.HandshakeMessage (.server_hello sh)), s1)) (ha : Agreed sh)
    (h2 : (readMessage m).run s1 = (.ok (.HandshakeMessage (.certificate certs)), s2)) (h : Fails m s2 k d) : Failing (readFlightD m) c k d := by
  refine Failing.after (hello_read h1) (Failing.after (hello_checked ha _) (Failing.after (certificate_read (c := { c with reader := s1 }) h2) (Failing.bind ?_)))
  exact Fails.expect (c := { c with reader := s2 }) h _

theorem flight_fails_done (h1 : (readMessage m).run c.reader = (.ok (.HandshakeMessage (.server_hello sh)), s1)) (ha : Agreed sh)
    (h2 : (readMessage m).run s1 = (.ok (.HandshakeMessage (.certificate certs)), s2)) (h3 : (readMessage m).run s2 = (.ok (.HandshakeMessage (.server_key_exchange ske)), s3))
    (hk : (Ecdhe.computeKeys m ske.data).run c.rng = (.ok keys, rng')) (h : Fails m s3 k d) : Failing (readFlightD m) c k d := by
  refine Failing.after (hello_read h1) (Failing.after (hello_checked ha _) (Failing.after (certificate_read (c := { c with reader := s1 }) h2)
    (Failing.after (keyExchange_read (c := { c with reader := s2 }) h3) (Failing.after (x := DSt.plain (onRng (Ecdhe.computeKeys m ske.data))) (onRng_ok (c := { c with reader := s3 }) hk) ?_))))
  obtain ⟨a, b⟩ := keys
  exact Failing.bind (Fails.expect (c := { c with reader := s3, rng := rng' }) h _)

/-- A flight that fails makes the handshake fail. -/
theorem handshake_of_flight (hfa : wr.faults = []) (hcr : cr.length = 32) (h : ∀ c : TlsClient, c.reader = TlsReader.new rd → c.rng = ⟨rest⟩ → Failing (readFlightD m) c k d) :
    Failing (handshakeD m) (fresh rd wr ⟨cr ++ rest⟩) k d := by
  obtain ⟨w', hsh, _⟩ := after_hello m rd wr ⟨cr ++ rest⟩ hfa rfl hcr
  exact Failing.after (x := DSt.plain (sendHello m)) hsh (Failing.bind (h { fresh rd wr ⟨cr ++ rest⟩ with rng := ⟨rest⟩, writer := w' } rfl rfl))

theorem alert_sent (m : Mode) (k : TlsErrorKind) (c : TlsClient) (hs : c.writer.SealsShort) (hn : c.writer.writeCount.toNat ≤ 3) (hf : c.writer.writer.faults = []) {y : Res Unit} {c1 : TlsClient}
    (h : (onWriter (TlsWriter.writeAlert m (Alert.fromTlsErr k))).run c = (y, c1)) : y = .ok () := by
  have hrun : ∀ x w', (TlsWriter.writeData m .AlertTy [2, alertCode k]).run c.writer = (x, w') →
      (onWriter (TlsWriter.writeAlert m (Alert.fromTlsErr k))).run c = (x, { c with writer := w' }) := by
    intro x w' h
    rw [← alert_code, ← writeAlert_run] at h
    exact onWriter_ok h
  rcases write_one m .AlertTy [2, alertCode k] c.writer hs (by simp) (show 2 ≤ RECORD_MAX_LEN by decide) (by omega) with ⟨ct, w', h1, h2⟩ | ⟨ct, w', n, h1, h2, h3, h4, _⟩
  · rw [hrun _ _ h1] at h
    cases h
    rfl
  · exact absurd hf h4

/-- If nothing fails when writing, the text of the handshake is that of `new`. -/
theorem newDesc_of (hfa : wr.faults = []) (h : Failing (handshakeD m) (fresh rd wr ⟨cr ++ rest⟩) k d) :
    (TlsClient.new m rd wr ⟨cr ++ rest⟩).1 = .err k ∧ newDesc m rd wr ⟨cr ++ rest⟩ = some d := by
  obtain ⟨⟨c0, h1⟩, h2⟩ := h
  have h1' : (handshake m).run (fresh rd wr ⟨cr ++ rest⟩) = (.err k, c0) := by rw [← C118_same_handshake]; exact h1
  refine ⟨new_result hfa h1', ?_⟩
  show (match (handshakeD m).st.run (fresh rd wr ⟨cr ++ rest⟩) with
    | (.err .IoFailure, _) => (handshakeD m).desc (fresh rd wr ⟨cr ++ rest⟩)
    | (.err k, client') =>
      match (onWriter (TlsWriter.writeAlert m (Alert.fromTlsErr k))).run client' with
      | (.ok (), _) => (handshakeD m).desc (fresh rd wr ⟨cr ++ rest⟩)
      | _ => none
    | _ => none) = _
  rw [h1]
  by_cases hk : k = .IoFailure
  · subst hk; exact h2
  · have hnew := new_result hfa h1'
    rw [new_run, h1'] at hnew
    dsimp only at hnew
    rcases hw : (onWriter (TlsWriter.writeAlert m (Alert.fromTlsErr k))).run c0 with ⟨y, c1⟩
    have hok : y = .ok () := by
      rcases handshake_stage m rd wr ⟨cr ++ rest⟩ _ c0 h1' with ⟨e1, _⟩ | ⟨random, rest', sent, next, e1, e2, e3, ⟨e4, e5, n, e6⟩ | ⟨e4, e5, e6, e7, e8⟩⟩
      · cases e1
      · exact absurd hfa e5
      · exact alert_sent m k c0 e6 e7 (e5 hfa) hw
    subst hok
    cases k <;> first | exact absurd rfl hk | (dsimp only; rw [hw]; exact h2)

/-- With the first flight come, what is left is `readFinishedD`. -/
theorem FlightComes.failing {f : ServerFlight} {s : TlsReader} (hf : FlightComes m rd rest f s rng') (hn : countBytes rd.stream + 1 < 2 ^ 64) (hfa : wr.faults = []) (hcr : cr.length = 32)
    (h : ∀ t, Same t { s with iv := some (f.keys cr).serverIv } → ∀ master msgs fin, ∀ c : TlsClient, c.reader = t → Failing (readFinishedD m master (f.keys cr).serverKey msgs fin) c k d) :
    Failing (handshakeD m) (fresh rd wr ⟨cr ++ rest⟩) k d := by
  obtain ⟨s1, s2, s3, t, hR, hs, -⟩ := hf.reads hn
  obtain ⟨wh, hsh, hwr⟩ := after_hello m rd wr ⟨cr ++ rest⟩ hfa rfl hcr
  have hR := hR { fresh rd wr ⟨cr ++ rest⟩ with rng := ⟨rest⟩, writer := wh } rfl rfl
  obtain ⟨X, Y, hfit, _⟩ := hR.fit
  have hfr := fresh_fresh rd wr ⟨cr ++ rest⟩
  rcases sendFinished_cases m cr f _ hcr hfit { fresh rd wr ⟨cr ++ rest⟩ with rng := rng', writer := wh, reader := t } (hwr.encryptor.trans hfr.encryptor) (hwr.iv.trans hfr.writerIv)
      (hR.same.2.trans hfr.readerIv) (by show wh.writeCount.toNat ≤ 1; rw [hwr.count, hfr.count]; decide) with ⟨w', g1, -⟩ | ⟨c', n, g1, g2, _⟩
  rotate_left
  · exact absurd (hwr.faults hfa) g2
  refine Failing.after (x := DSt.plain (sendHello m)) hsh ?_
  refine Failing.after (x := readFlightD m) (by rw [readFlightD_st]; exact readFlight_ok hR) ?_
  refine Failing.after (x := DSt.plain (sendFinished m cr (helloMessage cr) f)) g1 ?_
  exact h { t with iv := some (f.keys cr).serverIv } ⟨hs.1, hs.2.1, hs.2.2.1, hs.2.2.2.1, rfl⟩ _ _ _ _ rfl

/-- Where a handshake message is expected, the handshake fails as waiting for it does. -/
theorem Waits.failing (hn : countBytes rd.stream + 1 < 2 ^ 64) (hfa : wr.faults = []) (hcr : cr.length = 32) {s : TlsReader} (hw : Waits m rd cr rest s)
    (h : ∀ t, Same t s → Room s → Fails m t k d) : Failing (handshakeD m) (fresh rd wr ⟨cr ++ rest⟩) k d := by
  have r0 := room_new hn
  cases hw with
  | hello => exact handshake_of_flight hfa hcr fun c hc _ => flight_fails_hello (by rw [hc]; exact h _ (Same.refl _) r0)
  | certificate h1 ha =>
    obtain ⟨r1, -⟩ := h1.kept r0
    obtain ⟨t1, g1, e1⟩ := h1.runs m r0 (Same.refl _)
    exact handshake_of_flight hfa hcr fun c hc _ => flight_fails_certificate (by rw [hc]; exact g1) ha (h t1 (e1 trivial) r1)
  | keyExchange h1 ha h2 =>
    obtain ⟨r1, -⟩ := h1.kept r0
    obtain ⟨r2, -⟩ := h2.kept r1
    obtain ⟨t1, g1, e1⟩ := h1.runs m r0 (Same.refl _)
    obtain ⟨t2, g2, e2⟩ := h2.runs m r1 (e1 trivial)
    exact handshake_of_flight hfa hcr fun c hc _ => flight_fails_keyExchange (by rw [hc]; exact g1) ha g2 (h t2 (e2 trivial) r2)
  | done h1 ha h2 h3 hk =>
    obtain ⟨r1, -⟩ := h1.kept r0
    obtain ⟨r2, -⟩ := h2.kept r1
    obtain ⟨r3, -⟩ := h3.kept r2
    obtain ⟨t1, g1, e1⟩ := h1.runs m r0 (Same.refl _)
    obtain ⟨t2, g2, e2⟩ := h2.runs m r1 (e1 trivial)
    obtain ⟨t3, g3, e3⟩ := h3.runs m r2 (e2 trivial)
    exact handshake_of_flight hfa hcr fun c hc hr => flight_fails_done (by rw [hc]; exact g1) ha g2 g3 (by rw [hr]; exact hk) (h t3 (e3 trivial) r3)
  | @finished f s s1 rng' hf h1 =>
    obtain ⟨_, _, _, _, -, -, hr, hd, -⟩ := hf.reads hn
    refine hf.failing hn hfa hcr fun t hs master msgs fin c hc => ?_
    obtain ⟨t1, g1, e1⟩ := h1.runs m hr hs
    have e1 := e1 trivial
    subst hc
    have hset0 : (TlsReader.setDecryptor (.chacha m (f.keys cr).serverKey)).run t1 = (.ok (), keyed m t1 (f.keys cr).serverKey) := by
      have hd1 : t1.decryptor = none := e1.2.1.trans ((h1.kept hr).2.1.trans hd)
      simp only [TlsReader.setDecryptor, hd1, keyed]
    have hset : (DSt.plain (onReader (TlsReader.setDecryptor (.chacha m (f.keys cr).serverKey)))).st.run { c with reader := t1 } = (.ok (), { c with reader := keyed m t1 (f.keys cr).serverKey }) := by
      show (onReader (TlsReader.setDecryptor (.chacha m (f.keys cr).serverKey))).run { c with reader := t1 } = _
      rw [onReader_ok (c := { c with reader := t1 }) hset0]
    refine Failing.after (c1 := { c with reader := t1 }) (a := ()) ?_ (Failing.after hset (Failing.bind ?_))
    · rw [onReaderD_st, readChangeCipherSpecD_st]
      exact onReader_ok (readChangeCipherSpec_ok g1)
    · exact Fails.expect (c := { c with reader := keyed m t1 (f.keys cr).serverKey }) (h _ ⟨e1.1, rfl, rfl, e1.2.2.2.1, e1.2.2.2.2⟩ (hf.changed h1 hn hcr).1) _

theorem WaitsChange.failing (hn : countBytes rd.stream + 1 < 2 ^ 64) (hfa : wr.faults = []) (hcr : cr.length = 32) {s : TlsReader} (hw : WaitsChange m rd cr rest s)
    (h : ∀ t, Same t s → Room s → ∃ t', (readChangeCipherSpec m).run t = (.err k, t') ∧ (readChangeCipherSpecD m).desc t = some d) :
    Failing (handshakeD m) (fresh rd wr ⟨cr ++ rest⟩) k d := by
  obtain ⟨f, s0, rng', hf, rfl⟩ := hw
  obtain ⟨_, _, _, _, -, -, hr, -⟩ := hf.reads hn
  refine hf.failing hn hfa hcr fun t hs master msgs fin c hc => Failing.bind ?_
  obtain ⟨t', g1, g2⟩ := h t hs hr
  subst hc
  exact ⟨⟨{ c with reader := t' }, by rw [onReaderD_st, readChangeCipherSpecD_st]; exact onReader_ok g1⟩, g2⟩

/-! ### C118 -/

/-- Partial C118 (missing: the ChangeCipherSpec, see below): where a handshake message is expected, the error tells which alert has come. -/
theorem C118_told_partial (m : Mode) (rd : Reader) (wr : Writer) (cr rest : Bytes) (s : TlsReader) (f : Bytes) (k : TlsErrorKind) (d : Desc) (hn : countBytes rd.stream + 1 < 2 ^ 64)
    (hfa : wr.faults = []) (hcr : cr.length = 32) (hw : Waits m rd cr rest s) (ha : AlertComes s f) (hT : Told f k d) :
    (TlsClient.new m rd wr ⟨cr ++ rest⟩).1 = .err k ∧ newDesc m rd wr ⟨cr ++ rest⟩ = some d :=
  newDesc_of hfa (hw.failing hn hfa hcr fun _ ht hr => ha.told m hr ht hT)

/-- Every alert of at least two bytes is told of in exactly one way, and alerts with different descriptions are told of in different ways. -/
theorem told_one {f : Bytes} (h2 : 2 ≤ f.length) : ∃ k d, Told f k d := by
  by_cases h : ∃ level d, [levelNumber level, alertNumber d] <+: f
  · obtain ⟨level, d, h⟩ := h
    exact ⟨_, _, .known level d h⟩
  · exact ⟨_, _, .unknown h2 fun level d hp => h ⟨level, d, hp⟩⟩

theorem C118_distinct {f f' : Bytes} {k : TlsErrorKind} {d : Desc} (h : Told f k d) (h' : Told f' k d) : f[1]? = f'[1]? := by
  have key : ∀ {f : Bytes} {x y : UInt8}, [x, y] <+: f → f[1]? = some y := by
    rintro f x y ⟨t, rfl⟩
    rfl
  cases h with
  | known level d hp =>
    cases h' with
    | known level' _ hp' => rw [key hp, key hp']
  | unknown => cases h'; rfl

/-- In place of the ChangeCipherSpec the alerts that the client knows are all told of in the same way. -/
theorem C118_change_lost (m : Mode) (rd : Reader) (wr : Writer) (cr rest : Bytes) (s : TlsReader) (f : Bytes) (level : AlertLevel) (d : AlertDescription)
    (hn : countBytes rd.stream + 1 < 2 ^ 64) (hfa : wr.faults = []) (hcr : cr.length = 32) (hw : WaitsChange m rd cr rest s) (ha : AlertComes s f) (hp : [levelNumber level, alertNumber d] <+: f) :
    (TlsClient.new m rd wr ⟨cr ++ rest⟩).1 = .err .UnexpectedMessage ∧ newDesc m rd wr ⟨cr ++ rest⟩ = some (.text "expected ChangeCipherSpec, get alert") := by
  refine newDesc_of hfa (hw.failing hn hfa hcr fun t ht hr => ?_)
  obtain ⟨s', hc⟩ := ha.known hp
  obtain ⟨t', g, -⟩ := hc.runs m hr ht
  exact ⟨t', by rw [readChangeCipherSpec, St.bind_of_ok g]; rfl, by rw [readChangeCipherSpecD, DSt.desc_of_ok (by rw [readMessageD_st]; exact g)]; rfl⟩

/-- Partial C118: the others are told of there too. -/
theorem C118_change_unknown_partial (m : Mode) (rd : Reader) (wr : Writer) (cr rest : Bytes) (s : TlsReader) (f : Bytes) (hn : countBytes rd.stream + 1 < 2 ^ 64)
    (hfa : wr.faults = []) (hcr : cr.length = 32) (hw : WaitsChange m rd cr rest s) (ha : AlertComes s f) (h2 : 2 ≤ f.length) (hp : ∀ level d, ¬ [levelNumber level, alertNumber d] <+: f) :
    (TlsClient.new m rd wr ⟨cr ++ rest⟩).1 = .err .UnexpectedMessage ∧ newDesc m rd wr ⟨cr ++ rest⟩ = some (.unknownAlert f) := by
  refine newDesc_of hfa (hw.failing hn hfa hcr fun t ht hr => ?_)
  obtain ⟨s', hc⟩ := ha.unknown hp
  obtain ⟨t', g, -⟩ := hc.runs m hr ht
  refine ⟨t', by rw [readChangeCipherSpec, St.bind_of_err g], ?_⟩
  rw [readChangeCipherSpecD, DSt.desc_of_err (by rw [readMessageD_st]; exact g), readMessageD_respects m _ _ ht, ha.text m hr h2 hp]

/-- An alert that is read has come. -/
theorem Comes.alert {s s' : TlsReader} {a : Alert} {x : Res Message} (h : Comes s x s') (hx : x = .ok (.AlertMessage a)) : ∃ f, AlertComes s f ∧ [levelNumber a.level, alertNumber a.description] <+: f := by
  induction h with
  | whole => cases hx
  | bad => cases hx
  | more hc ht hty hne hb _ ih =>
    obtain ⟨f, h1, h2⟩ := ih hx
    exact ⟨f, .more hc ht hty hne hb h1, h2⟩
  | message hc ht hb hm =>
    cases hx
    cases hm with
    | alert level d hty hp => exact ⟨_, .here hc ht hb hty, hp⟩
  | noMessage => cases hx
  | noRecord => cases hx
  | overlong => cases hx

theorem not_alert_keyed {s : TlsReader} {m : Mode} {key f : Bytes} (hd : s.decryptor = some (.chacha m key)) (hk : key.length = 32) (hf : f.length ≤ 18432) (ty : ContentType) (a b : UInt8) :
    s.unprotect ty a b f ≠ .err .AlertReceived := by
  intro h
  have hmac : (Decryptor.chacha m key).macLen = 16 := rfl
  have hnl : s.nonce.length = 12 := by rw [TlsReader.nonce_eq, nonceFor_length]
  simp only [unprotect, hd, hmac] at h
  split at h
  · cases h
  · have hdec : (Decryptor.chacha m key).decrypt s.nonce f (s.ad ty a b (f.length - 16)) = Aead.decrypt m key s.nonce f (s.ad ty a b (f.length - 16)) := rfl
    rw [hdec, C39_decrypt_is_rfc8439 m key _ _ _ hk hnl (by omega)] at h
    cases ho : Spec.Aead.openMsg key s.nonce (s.ad ty a b (f.length - 16)) f with
    | none => rw [ho] at h; cases h
    | some p =>
      rw [ho] at h
      change (if p.length > RECORD_MAX_LEN then Res.panic else Record.new ty a b p) = _ at h
      split at h
      · cases h
      · rename_i hl
        rw [Record.new, if_neg hl] at h
        cases h

/-- With the keys of the connection, or none, reading never says AlertReceived. -/
theorem Comes.not_alert {s s' : TlsReader} {x : Res Message} (h : Comes s x s') (hk : SoundKeys s) : x ≠ .err .AlertReceived := by
  induction h with
  | whole => simp
  | bad _ _ hb => cases hb <;> simp
  | more hc ht _ _ _ _ ih =>
    refine ih ?_
    unfold SoundKeys at *
    rw [(Took.same ht).1]
    exact hk
  | message => simp
  | noMessage => simp
  | noRecord _ hb =>
    cases hb with
    | refused ty a b f k l hf hs hu =>
      rintro he
      cases he
      rcases hk with hd | ⟨m, key, hd, hl⟩
      · exact absurd (refused_clear hu hd).1 (by simp)
      · exact absurd hu (not_alert_keyed hd hl hf ty a b)
    | _ => simp
  | overlong => simp

theorem refused_alert {x : Res Message} (h : (refused x : Res Unit) = .err .AlertReceived) : (∃ a, x = .ok (.AlertMessage a)) ∨ x = .err .AlertReceived := by
  rcases x with (_ | _ | a | _) | k | _ | _
  case ok.AlertMessage => exact Or.inl ⟨_, rfl⟩
  case err => cases h; exact Or.inr rfl
  all_goals cases h

/-- C118: and the error AlertReceived always names an alert that the server has sent where a handshake message was expected. -/
theorem C118_named (m : Mode) (rd : Reader) (wr : Writer) (cr rest : Bytes) (hn : countBytes rd.stream + 1 < 2 ^ 64) (hfa : wr.faults = []) (hcr : cr.length = 32)
    (h : (TlsClient.new m rd wr ⟨cr ++ rest⟩).1 = .err .AlertReceived) :
    ∃ s f level d, Waits m rd cr rest s ∧ AlertComes s f ∧ [levelNumber level, alertNumber d] <+: f ∧ newDesc m rd wr ⟨cr ++ rest⟩ = some (.alert d) := by
  have key : ∀ {s s' : TlsReader} {x : Res Message}, Waits m rd cr rest s → SoundKeys s → Comes s x s' → (refused x : Res Unit) = .err .AlertReceived →
      ∃ s f level d, Waits m rd cr rest s ∧ AlertComes s f ∧ [levelNumber level, alertNumber d] <+: f ∧ newDesc m rd wr ⟨cr ++ rest⟩ = some (.alert d) := by
    intro s s' x hw hk hc hx
    rcases refused_alert hx with ⟨a, ha⟩ | he
    · obtain ⟨f, h1, h2⟩ := hc.alert ha
      exact ⟨s, f, a.level, a.description, hw, h1, h2, (C118_told_partial m rd wr cr rest s f _ _ hn hfa hcr hw h1 (.known _ _ h2)).2⟩
    · exact absurd he (hc.not_alert hk)
  have r0 := room_new hn
  have hE := (C107_outcome m rd wr cr rest _ hfa hcr hn).mp h
  generalize hx : (Res.err .AlertReceived : Res Unit) = y at hE
  cases hE with
  | hello h1 _ => exact key .hello (Or.inl rfl) h1 hx.symm
  | parameters => cases hx
  | certificate h1 ha h2 _ => exact key (.certificate h1 ha) (Or.inl (h1.kept r0).2.1) h2 hx.symm
  | keyExchange h1 ha h2 h3 _ =>
    obtain ⟨r1, d1, -⟩ := h1.kept r0
    exact key (.keyExchange h1 ha h2) (Or.inl ((h2.kept r1).2.1.trans d1)) h3 hx.symm
  | @keys _ _ ske _ _ _ y _ _ _ _ _ hk hne =>
    exfalso
    cases y with
    | ok k => exact hne k rfl
    | err k =>
      cases hx
      cases computeKeys_err hk
    | panic => cases hx
    | diverge => cases hx
  | done h1 ha h2 h3 hk h4 _ =>
    obtain ⟨r1, d1, -⟩ := h1.kept r0
    obtain ⟨r2, d2, -⟩ := h2.kept r1
    exact key (.done h1 ha h2 h3 hk) (Or.inl ((h3.kept r2).2.1.trans (d2.trans d1))) h4 hx.symm
  | change hF h1 hne =>
    exfalso
    obtain ⟨_, _, _, _, -, -, hr, hd, -⟩ := hF.reads hn
    rcases refused_alert hx.symm with ⟨a, ha⟩ | he
    · exact hne _ ha
    · exact h1.not_alert (Or.inl hd) he
  | noChange => cases hx
  | finished hF h1 h2 _ => exact key (.finished hF h1) (hF.changed h1 hn hcr).2 h2 hx.symm
  | verify => cases hx
  | connected => cases hx

end

/-! ### An alert in place of the ChangeCipherSpec -/

/-- With the first flight of a conforming server come, the client waits for the ChangeCipherSpec. -/
theorem ServerValues.Conforms.waits {V : ServerValues} (hV : V.Conforms) (m : Mode) {rd : Reader} {cr rest block more : Bytes} (D : Draws (cr ++ rest) cr block more)
    (hn : countBytes rd.stream + 1 < 2 ^ 64) {bs : Bytes} {l : List Sym} (hp : ClearPending (TlsReader.new rd) (V.first 4 ++ bs) l) :
    ∃ s, WaitsChange m rd cr rest s ∧ ClearPending s bs l ∧ Room s := by
  obtain ⟨more', hm, hk⟩ := hV.keys D m
  cases List.append_cancel_left hm
  obtain ⟨f, hfit, v1, v3, f3, f4, f5, b1, b2, b3, -⟩ := session_flight hV cr (clientPoint block) _ rfl
  have hp : ClearPending (TlsReader.new rd) (serverHelloBytes V.random V.sessionId (extPart V.exts) ++ (certificateBytes V.certs ++ (handshakeBytes 12 V.keyExchange ++ (handshakeBytes 14 [] ++ bs)))) l := by
    simpa [ServerValues.first, ServerValues.messages] using hp
  have next : ∀ {s s' : TlsReader} {x : Res Message}, s.decryptor = none → Room s → (readMessage m).run s = (x, s') → Comes s x s' := by
    intro s s' x hd hr h
    have := comes_total m s (Or.inl hd) hr
    rw [h] at this
    exact this
  obtain ⟨s1, g1, p1, -⟩ := hp.take m b1
  obtain ⟨s2, g2, p2, -⟩ := p1.take m b2
  obtain ⟨s3, g3, p3, -⟩ := p2.take m b3
  obtain ⟨s4, g4, p4, -⟩ := p3.take m framed_serverHelloDone
  have c1 := next rfl (room_new hn) g1
  obtain ⟨r1, d1, -⟩ := c1.kept (room_new hn)
  have c2 := next d1 r1 g2
  obtain ⟨r2, d2, -⟩ := c2.kept r1
  have c3 := next (d2.trans d1) r2 g3
  obtain ⟨r3, d3, -⟩ := c3.kept r2
  have c4 := next (d3.trans (d2.trans d1)) r3 g4
  exact ⟨_, ⟨f, s4, ⟨more⟩, ⟨⟨s1, s2, s3, c1, c2, c3, c4⟩, ⟨v1, hfit.suite, v3⟩, by rw [f3, f4, f5]; exact hk⟩, rfl⟩, p4.setIv _, (c4.kept r3).1⟩

/-- A server that sends its first flight and then an alert; the client has got that far. -/
theorem alert_at_change (m : Mode) (a : Alert) : ∃ (rd : Reader) (cr rest : Bytes) (s : TlsReader) (f : Bytes), cr.length = 32 ∧ countBytes rd.stream + 1 < 2 ^ 64 ∧ WaitsChange m rd cr rest s ∧
    AlertComes s f ∧ [levelNumber a.level, alertNumber a.description] <+: f := by
  obtain ⟨V, hV⟩ : ∃ V : ServerValues, V.Conforms := ⟨{ random := List.replicate 32 7, secret := 1 },
    ⟨by simp, by simp, by simp, by simp, by decide, by rw [one_nsmul]; exact Spec.P256.G_ne_zero, by simp⟩⟩
  have D : Draws (List.replicate 32 0 ++ (5 :: List.replicate 31 0)) (List.replicate 32 0) (5 :: List.replicate 31 0) [] :=
    ⟨⟨[], by simp, by simp⟩, by simp, by simp, by decide⟩
  have hfl := flight_length hV (S := V.session (List.replicate 32 0) (clientPoint (5 :: List.replicate 31 0))) rfl
  have hle := first_le (V := V) (List.replicate 32 0) (clientPoint (5 :: List.replicate 31 0)) 4
  have hc : Cuts (chunks 16384 (V.first 4)) (V.first 4) := cuts_exists _ (by omega)
  obtain ⟨rd, hrd⟩ : ∃ rd, rd = byteByByte ((chunks 16384 (V.first 4)).flatMap (recordBytes 22 3 3) ++ recordBytes 21 3 3 (alertPayload a)) := ⟨_, rfl⟩
  have hs : rd.stream = ofBytes ((chunks 16384 (V.first 4)).flatMap (recordBytes 22 3 3)) ++ (ofBytes (recordBytes 21 3 3 (alertPayload a)) ++ []) := by
    rw [hrd, stream_byteByByte, ofBytes_append, List.append_nil]
  have hn : countBytes rd.stream + 1 < 2 ^ 64 := by
    have n1 : (chunks 16384 (V.first 4)).length = ((V.first 4).length + 16384 - 1) / 16384 := chunks_count (by decide) _
    have l2 : (alertPayload a).length = 2 := rfl
    rw [hrd, stream_byteByByte, countBytes_ofBytes, List.length_append, clear_length, hc.2.2, recordBytes_length, n1, l2]
    omega
  obtain ⟨s, hw, hp, hr⟩ := hV.waits m D hn (bs := []) (by rw [List.append_nil]; exact hc.pending rd _ hs)
  have hpre : Unfinished [] := ⟨0, [], handshakeBytes 0 [], by decide, rfl, by simp [handshakeBytes]⟩
  have hd : s.decryptor = none := by
    obtain ⟨_, _, _, _, _, _, h, _⟩ := hp
    exact h
  obtain ⟨s1, r1, -⟩ := hp.other (ty := .AlertTy) (f := alertPayload a) m (by decide) (by simp [alertPayload]) hpre.incomplete
  rw [show recordMessage ⟨.AlertTy, 3, 3, alertPayload a⟩ = .ok (.AlertMessage a) from alertMessage_payload a] at r1
  have hcm := comes_total m s (Or.inl hd) hr
  rw [r1] at hcm
  obtain ⟨f, h1, h2⟩ := hcm.alert rfl
  exact ⟨rd, _, _, s, f, by simp, hn, hw, h1, h2⟩

/-- C118 is false: a server that does not accept the client's Finished says so in place of the ChangeCipherSpec, and the error does not tell what it has said. -/
theorem C118_false : ¬ TellsAlerts := by
  intro h
  obtain ⟨rd, cr, rest, s, f, hcr, hn, hw, ha, hp⟩ := alert_at_change .release ⟨.fatal, .decrypt_error⟩
  obtain ⟨k, d, hT, h1, h2⟩ := h .release rd {} cr rest s f hn rfl hcr (Or.inr hw) ha (by obtain ⟨t, rfl⟩ := hp; simp)
  obtain ⟨g1, -⟩ := C118_change_lost .release rd {} cr rest s f _ _ hn rfl hcr hw ha hp
  rw [g1] at h1
  cases h1
  cases hT with
  | unknown _ hno => exact hno _ _ hp

/-! ### Cases -/

/-- The server answers the ClientHello with `handshake_failure`: the error is "alert: handshake_failure". -/
example (m : Mode) : (TlsClient.new m ⟨[.data [21, 3, 3, 0, 2, 2, 40]]⟩ {} ⟨List.replicate 32 7 ++ []⟩).1 = .err .AlertReceived ∧
    newDesc m ⟨[.data [21, 3, 3, 0, 2, 2, 40]]⟩ {} ⟨List.replicate 32 7 ++ []⟩ = some (.alert .handshake_failure) :=
  C118_told_partial m _ {} (List.replicate 32 7) [] _ [2, 40] _ _ (by decide) rfl (by simp) .hello
    (.here (s' := { TlsReader.new ⟨[]⟩ with readCount := 1 }) (r := ⟨.AlertTy, 3, 3, [2, 40]⟩) cut_nil
      (.cons (s1 := { TlsReader.new ⟨[]⟩ with readCount := 1 }) (ty := .AlertTy) (a := 3) (b := 3) (f := [2, 40]) (by decide) rfl rfl rfl rfl rfl (.nil rfl rfl rfl rfl)) rfl rfl)
    (.known .fatal .handshake_failure ⟨[], rfl⟩)

/-- It answers with an alert that the client does not know, 120 (no_application_protocol), after the first half of a message: the error is "unknown alert: [2, 120]". -/
example (m : Mode) : (TlsClient.new m ⟨[.data [22, 3, 3, 0, 2, 2, 0], .data [21, 3, 3, 0, 2, 2, 120]]⟩ {} ⟨List.replicate 32 7 ++ []⟩).1 = .err .UnexpectedMessage ∧
    newDesc m ⟨[.data [22, 3, 3, 0, 2, 2, 0], .data [21, 3, 3, 0, 2, 2, 120]]⟩ {} ⟨List.replicate 32 7 ++ []⟩ = some (.unknownAlert [2, 120]) :=
  C118_told_partial m _ {} (List.replicate 32 7) [] _ [2, 120] _ _ (by decide) rfl (by simp) .hello
    (.more (s1 := { TlsReader.new ⟨[.data [21, 3, 3, 0, 2, 2, 120]]⟩ with readCount := 1, handshakeBuffer := ⟨[2, 0]⟩ }) (r := ⟨.HandshakeTy, 3, 3, [2, 0]⟩) cut_nil
      (.cons (s1 := { TlsReader.new ⟨[.data [21, 3, 3, 0, 2, 2, 120]]⟩ with readCount := 1 }) (ty := .HandshakeTy) (a := 3) (b := 3) (f := [2, 0]) (by decide) rfl rfl rfl rfl rfl
        (.nil rfl rfl rfl rfl)) rfl (by simp) rfl
      (.here (s' := { TlsReader.new ⟨[]⟩ with readCount := 2, handshakeBuffer := ⟨[2, 0]⟩ }) (r := ⟨.AlertTy, 3, 3, [2, 120]⟩) (Or.inl (by decide))
        (.cons (s1 := { TlsReader.new ⟨[]⟩ with readCount := 2 }) (ty := .AlertTy) (a := 3) (b := 3) (f := [2, 120]) (by decide) rfl rfl rfl rfl rfl (.nil rfl rfl rfl rfl)) rfl rfl))
    (.unknown (by decide) (by
      rintro level d ⟨t, ht⟩
      have : alertNumber d = 120 := by
        have := congrArg (·[1]?) ht
        simpa using this
      cases d <;> simp [alertNumber] at this))

end Husk
