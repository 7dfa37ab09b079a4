import Verif.Model.TraceTls
import Verif.Proofs.TraceSym
/-! The record layer and the client calls with observations have the results of the model. -/

namespace Husk

open TSt

/-! ### The transport -/

abbrev Always {σ : Type} : σ → Prop := fun _ => True

theorem Writer.writeAllT_agrees (b : Bytes) : Agrees Always (Writer.writeAllT b) (Writer.writeAll b) := fun _ _ => ⟨rfl, trivial⟩

theorem Reader.readT_agrees (n : Nat) : Agrees Always (Reader.readT n) (Reader.read n) := fun _ _ => ⟨rfl, trivial⟩

theorem Reader.fillLoopT_agrees (fuel need : Nat) (acc : Bytes) : Agrees Always (Reader.fillLoopT fuel need acc) (Reader.fillLoop fuel need acc) := by
  induction fuel generalizing need acc with
  | zero =>
    rw [Reader.fillLoopT.eq_def, Reader.fillLoop.eq_def]
    refine Agrees.test ?_
    by_cases h : need = 0
    · simp only [h, decide_true, if_true]; exact Agrees.pure _
    · simp only [h, decide_false, if_false, Bool.false_eq_true]; exact Agrees.lift _
  | succ fuel ih =>
    rw [Reader.fillLoopT.eq_def, Reader.fillLoop.eq_def]
    refine Agrees.test ?_
    by_cases h : need = 0
    · simp only [h, decide_true, if_true]; exact Agrees.pure _
    · simp only [h, decide_false, if_false, Bool.false_eq_true]
      refine Agrees.bind (Reader.readT_agrees need) fun b => Agrees.test ?_
      by_cases hb : b.length = 0
      · simp only [hb, decide_true, if_true]; exact Agrees.lift _
      · simp only [hb, decide_false, if_false, Bool.false_eq_true]; exact ih _ _

theorem Reader.readExactT_agrees (n : Nat) : Agrees Always (Reader.readExactT n) (Reader.readExact n) := Agrees.see (Reader.fillLoopT_agrees n n [])
theorem Reader.readU8T_agrees : Agrees Always Reader.readU8T Reader.readU8 := Agrees.bind (Reader.readExactT_agrees 1) fun _ => Agrees.pure _
theorem Reader.readBeU16T_agrees : Agrees Always Reader.readBeU16T Reader.readBeU16 := Agrees.bind (Reader.readExactT_agrees 2) fun _ => Agrees.pure _

/-! ### Records -/

theorem xorIvT_res (nonce iv : Bytes) : (xorIvT nonce iv).res = .ok (xorIv nonce iv) := by
  induction nonce generalizing iv with
  | nil => cases iv <;> simp [xorIvT, xorIv]
  | cons x nonce ih =>
    cases iv with
    | nil => simp [xorIvT, xorIv]
    | cons y iv =>
      rw [xorIvT]
      simp only [Tr.bind_res, Tr.see_res, Res.bind_ok, ih, Tr.pure_res]
      rfl

theorem nonceT_res_writer (s : TlsWriter) : (nonceT s.writeCount s.iv).res = .ok s.nonce := by
  unfold nonceT TlsWriter.nonce
  cases s.iv with
  | none => rfl
  | some iv => simp only [Tr.bind_res, Tr.see_res, Res.bind_ok]; exact xorIvT_res _ _

theorem nonceT_res_reader (s : TlsReader) : (nonceT s.readCount s.iv).res = .ok s.nonce := by
  unfold nonceT TlsReader.nonce
  cases s.iv with
  | none => rfl
  | some iv => simp only [Tr.bind_res, Tr.see_res, Res.bind_ok]; exact xorIvT_res _ _

theorem Record.newT_res (ty : ContentType) (a b : UInt8) (f : Bytes) : (Record.newT ty a b f).res = Record.new ty a b f := by
  unfold Record.newT Record.new
  simp only [Tr.bind_res, Tr.test_res, Res.bind_ok]
  by_cases h : f.length > RECORD_MAX_LEN <;> simp [h]

namespace TlsWriter

/-- The encryptor is the one of the crate, with this key. -/
def HasKey (m : Mode) (key : Option Bytes) (s : TlsWriter) : Prop := s.encryptor = key.map (Encryptor.chacha m)

variable {m : Mode} {key : Option Bytes}

theorem ioT_agrees {x : TSt Writer α} {y : St Writer α} (h : Agrees Always x y) : Agrees (HasKey m key) (ioT x) (io y) :=
  Agrees.zoom h (fun _ _ => trivial) fun _ _ h _ => h

theorem protectT_agrees (record : Record) : Agrees (HasKey m key) (protectT m key record) (protect record) := by
  intro s hs
  cases key with
  | none =>
    have he : s.encryptor = none := hs
    have e : (protect record).run s = (.ok record.fragment, s) := by simp only [protect, he]
    rw [e]
    exact ⟨rfl, hs⟩
  | some key =>
    have he : s.encryptor = some (Encryptor.chacha m key) := hs
    have hn : (ofTr (nonceT s.writeCount s.iv) : TSt TlsWriter Bytes).run s = ((nonceT s.writeCount s.iv).trace, .ok s.nonce, s) := by
      rw [← nonceT_res_writer]; rfl
    have hr := Aead.encryptT_res m key s.nonce record.fragment (s.ad record)
    let rest : Bytes → St TlsWriter Bytes := fun out => do
      St.modify fun s' => { s' with calls := s'.calls ++ [⟨s.nonce, record.fragment, s.ad record, out⟩] }
      return out
    have hx : ((protectT m (some key) record).run s).2 = ((ofTr (Aead.encryptT m key s.nonce record.fragment (s.ad record)) >>= fun out => do
        quiet (St.modify fun s' => { s' with calls := s'.calls ++ [⟨s.nonce, record.fragment, s.ad record, out⟩] })
        return out : TSt TlsWriter Bytes).run s).2 := by
      show ((ofTr (nonceT s.writeCount s.iv) >>= fun nonce => ofTr (Aead.encryptT m key nonce record.fragment (s.ad record)) >>= fun out => do
        quiet (St.modify fun s' => { s' with calls := s'.calls ++ [⟨nonce, record.fragment, s.ad record, out⟩] })
        return out : TSt TlsWriter Bytes).run s).2 = _
      rw [bind_of_ok hn]
    have e : (protect record).run s = (St.lift (Aead.encrypt m key s.nonce record.fragment (s.ad record)) >>= rest).run s := by
      have e1 : (protect record).run s = match Aead.encrypt m key s.nonce record.fragment (s.ad record) with
        | .ok c => (.ok c, { s with calls := s.calls ++ [⟨s.nonce, record.fragment, s.ad record, c⟩] })
        | .err k => (.err k, s)
        | .panic => (.panic, s)
        | .diverge => (.diverge, s) := by
        simp only [protect, he]; rfl
      rw [e1, St.bind_run, St.lift_run]
      cases Aead.encrypt m key s.nonce record.fragment (s.ad record) <;> rfl
    rw [hx, e]
    exact (Agrees.bind (P := HasKey m (some key)) (Agrees.ofTr hr) fun out => Agrees.bind (Agrees.quiet fun _ h => h) fun _ => Agrees.pure out) s hs

theorem bump_agrees : Agrees (HasKey m key) (quiet (bump m)) (bump m) := Agrees.quiet (by
  intro s hs
  unfold bump
  dsimp only
  cases addU64 m s.writeCount 1 <;> exact hs)

theorem writeRecordT_agrees (record : Record) : Agrees (HasKey m key) (writeRecordT m key record) (writeRecord m record) := by
  refine Agrees.bind (protectT_agrees record) fun e => Agrees.test ?_
  by_cases h : e.length > ENC_RECORD_MAX_LEN
  · simp only [h, decide_true, if_true]; exact Agrees.lift _
  · simp only [h, decide_false, if_false, Bool.false_eq_true]
    exact Agrees.bind (ioT_agrees (Writer.writeAllT_agrees _)) fun _ => Agrees.bind (ioT_agrees (Writer.writeAllT_agrees _)) fun _ =>
      Agrees.bind (ioT_agrees (Writer.writeAllT_agrees _)) fun _ => Agrees.bind (ioT_agrees (Writer.writeAllT_agrees _)) fun _ =>
      Agrees.bind (ioT_agrees (Writer.writeAllT_agrees _)) fun _ => bump_agrees

theorem writeChunksT_agrees (ty : ContentType) (cs : List Bytes) : Agrees (HasKey m key) (writeChunksT m key ty cs) (writeChunks m ty cs) := by
  induction cs with
  | nil => exact Agrees.see (Agrees.pure _)
  | cons c cs ih =>
    exact Agrees.see (Agrees.see (Agrees.bind (Agrees.ofTr (Record.newT_res _ _ _ _)) fun record => Agrees.bind (writeRecordT_agrees record) fun _ => ih))

theorem writeAlertT_agrees (a : Alert) : Agrees (HasKey m key) (writeAlertT m key a) (writeAlert m a) :=
  Agrees.bind (Agrees.lift _) fun _ => Agrees.see (writeChunksT_agrees _ _)

theorem writeApplicationDataT_agrees (data : Bytes) : Agrees (HasKey m key) (writeApplicationDataT m key data) (writeApplicationData m data) := by
  refine Agrees.bind Agrees.get fun s => Agrees.test ?_
  by_cases h : s.encryptor.isNone = true
  · simp only [h, if_true]; exact Agrees.lift _
  · simp only [h, if_false, Bool.false_eq_true]; exact writeChunksT_agrees _ _

end TlsWriter

namespace TlsReader

/-- The decryptor is the one of the crate, with this key. -/
def HasKey (m : Mode) (key : Option Bytes) (s : TlsReader) : Prop := s.decryptor = key.map (Decryptor.chacha m)

variable {m : Mode} {key : Option Bytes}

theorem ioT_agrees {x : TSt Reader α} {y : St Reader α} (h : Agrees Always x y) : Agrees (HasKey m key) (ioT x) (io y) :=
  Agrees.zoom h (fun _ _ => trivial) fun _ _ h _ => h

theorem unprotectT_res {s : TlsReader} (hs : HasKey m key s) (ty : ContentType) (a b : UInt8) (f : Bytes) : (unprotectT m key s ty a b f).res = s.unprotect ty a b f := by
  cases key with
  | none =>
    have hd : s.decryptor = none := hs
    unfold unprotectT unprotect
    rw [hd]
    simp only [Tr.bind_res, Tr.see_res, Tr.test_res, Res.bind_ok]
    by_cases h : f.length > RECORD_MAX_LEN
    · simp only [h, decide_true, if_true]; rfl
    · simp only [h, decide_false, if_false, Bool.false_eq_true]; exact Record.newT_res _ _ _ _
  | some key =>
    have hd : s.decryptor = some (Decryptor.chacha m key) := hs
    have hm : (Decryptor.chacha m key).macLen = Aead.MAC_LEN := rfl
    unfold unprotectT unprotect
    rw [hd]
    simp only [Tr.bind_res, Tr.see_res, Tr.test_res, Res.bind_ok, hm]
    by_cases h : f.length < Aead.MAC_LEN
    · simp only [h, decide_true, if_true]; rfl
    · simp only [h, decide_false, if_false, Bool.false_eq_true, Tr.bind_res, nonceT_res_reader, Res.bind_ok]
      show (Aead.decryptT m key s.nonce f (s.ad ty a b (f.length - Aead.MAC_LEN))).res >>= _ = (Aead.decrypt m key s.nonce f (s.ad ty a b (f.length - Aead.MAC_LEN))) >>= _
      rw [Aead.decryptT_res]
      congr 1
      funext data
      simp only [Tr.test_res, Res.bind_ok]
      by_cases h : data.length > RECORD_MAX_LEN
      · simp only [h, decide_true, if_true]; rfl
      · simp only [h, decide_false, if_false, Bool.false_eq_true]; exact Record.newT_res _ _ _ _

theorem bump_agrees : Agrees (HasKey m key) (quiet (bump m)) (bump m) := Agrees.quiet (by
  intro s hs
  unfold bump
  dsimp only
  cases addU64 m s.readCount 1 <;> exact hs)

/-- What happens once the fragment is there. -/
theorem finishT_agrees (ty : ContentType) (a b : UInt8) (f : Bytes) : Agrees (HasKey m key)
    (TSt.get >>= fun s => ofTr (unprotectT m key s ty a b f) >>= fun record => quiet (bump m) >>= fun _ => Pure.pure record)
    (St.get >>= fun s => St.lift (s.unprotect ty a b f) >>= fun record => bump m >>= fun _ => Pure.pure record) := by
  intro s hs
  exact (Agrees.bind (Agrees.ofTr (unprotectT_res hs ty a b f)) fun record => Agrees.bind (bump_agrees (m := m) (key := key)) fun _ => Agrees.pure record) s hs

theorem readRecordT_agrees : Agrees (HasKey m key) (readRecordT m key) (readRecord m) := by
  refine Agrees.bind (ioT_agrees Reader.readU8T_agrees) fun ty => Agrees.see ?_
  cases ContentType.ofU8 ty with
  | none => exact Agrees.lift _
  | some ty =>
    refine Agrees.bind (ioT_agrees Reader.readU8T_agrees) fun a => Agrees.bind (ioT_agrees Reader.readU8T_agrees) fun b =>
      Agrees.bind (ioT_agrees Reader.readBeU16T_agrees) fun len => Agrees.test ?_
    by_cases h : len.toNat > ENC_RECORD_MAX_LEN
    · simp only [h, decide_true, if_true]; exact Agrees.lift _
    · simp only [h, decide_false, if_false, Bool.false_eq_true]
      exact Agrees.bind (ioT_agrees (Reader.readExactT_agrees _)) fun f => finishT_agrees ty a b f

theorem onBuffer_agrees (x : St HandshakeBuffer α) : Agrees (HasKey m key) (quiet (onBuffer x)) (onBuffer x) := Agrees.quiet fun _ h => h

theorem getMessageT_agrees : Agrees (HasKey m key) getMessageT (onBuffer HandshakeBuffer.getMessage) := fun s hs => ⟨rfl, (onBuffer_agrees _ s hs).2⟩

theorem alertMessageT_res (f : Bytes) : (alertMessageT f).res = alertMessage f := by
  unfold alertMessageT
  simp only [Tr.bind_res, Tr.see_res, Res.bind_ok, Tr.lift_res]

theorem messageStepT_agrees : Agrees (HasKey m key) (messageStepT m key) (messageStep m) := by
  refine Agrees.bind readRecordT_agrees fun record => Agrees.see ?_
  cases record.contentType with
  | ChangeCipherSpecTy => exact Agrees.see (Agrees.see (Agrees.bind (Agrees.lift _) fun _ => Agrees.pure _))
  | AlertTy => exact Agrees.bind (Agrees.ofTr (alertMessageT_res _)) fun _ => Agrees.pure _
  | ApplicationDataTy => exact Agrees.pure _
  | HandshakeTy =>
    refine Agrees.test ?_
    dsimp only
    cases record.fragment.isEmpty with
    | true => exact Agrees.lift _
    | false =>
      refine Agrees.see (Agrees.bind (onBuffer_agrees _) fun _ => Agrees.bind getMessageT_agrees fun msg => Agrees.see ?_)
      cases msg <;> exact Agrees.pure _

theorem messageLoopT_agrees (fuel : Nat) : Agrees (HasKey m key) (messageLoopT m key fuel) (messageLoop m fuel) := by
  induction fuel with
  | zero => exact Agrees.lift _
  | succ fuel ih =>
    refine Agrees.bind messageStepT_agrees fun msg => ?_
    cases msg with
    | none => exact ih
    | some msg => exact Agrees.pure _

theorem readMessageT_agrees : Agrees (HasKey m key) (readMessageT m key) (readMessage m) := by
  refine Agrees.bind getMessageT_agrees fun msg => ?_
  cases msg with
  | none => exact Agrees.bind Agrees.get fun s => messageLoopT_agrees _
  | some h => exact Agrees.pure _

theorem readApplicationDataT_agrees : Agrees (HasKey m key) (readApplicationDataT m key) (readApplicationData m) := by
  refine Agrees.bind Agrees.get fun s => Agrees.test ?_
  by_cases h : s.decryptor.isNone = true
  · simp only [h, if_true]; exact Agrees.lift _
  · simp only [h, if_false, Bool.false_eq_true]
    exact Agrees.bind readMessageT_agrees fun msg => Agrees.see (Agrees.lift _)

end TlsReader

namespace TlsClient

/-- Both directions use the cipher of the crate, with these keys. -/
def HasKeys (m : Mode) (wk rk : Option Bytes) (c : TlsClient) : Prop := c.writer.HasKey m wk ∧ c.reader.HasKey m rk

variable {m : Mode} {wk rk : Option Bytes}

theorem onWriterT_agrees {x : TSt TlsWriter α} {y : St TlsWriter α} (h : Agrees (TlsWriter.HasKey m wk) x y) : Agrees (HasKeys m wk rk) (onWriterT x) (onWriter y) :=
  Agrees.zoom h (fun _ h => h.1) fun _ _ h h' => ⟨h', h.2⟩

theorem onReaderT_agrees {x : TSt TlsReader α} {y : St TlsReader α} (h : Agrees (TlsReader.HasKey m rk) x y) : Agrees (HasKeys m wk rk) (onReaderT x) (onReader y) :=
  Agrees.zoom h (fun _ h => h.2) fun _ _ h h' => ⟨h.1, h'⟩

theorem sendTlsAlertT_agrees (k : TlsErrorKind) : Agrees (HasKeys m wk rk) (sendTlsAlertT m wk k) (sendTlsAlert m k) := by
  intro c hc
  obtain ⟨e, hp⟩ := onWriterT_agrees (rk := rk) (TlsWriter.writeAlertT_agrees (m := m) (key := wk) (Alert.fromTlsErr k)) c hc
  by_cases hk : k = .IoFailure
  · subst hk; exact ⟨rfl, hc⟩
  · have e1 : (sendTlsAlert m k).run c = match (onWriter (TlsWriter.writeAlert m (Alert.fromTlsErr k))).run c with
      | (.ok (), c) => (.ok k, c)
      | (.err k', c) => (.ok k', c)
      | (.panic, c) => (.panic, c)
      | (.diverge, c) => (.diverge, c) := by cases k <;> first | exact absurd rfl hk | rfl
    have e2 : (sendTlsAlertT m wk k).run c = match (onWriterT (TlsWriter.writeAlertT m wk (Alert.fromTlsErr k))).run c with
      | (t, .ok (), c) => ([.branch false] ++ t ++ [.branch true], .ok k, c)
      | (t, .err k', c) => ([.branch false] ++ t ++ [.branch false], .ok k', c)
      | (t, .panic, c) => ([.branch false] ++ t, .panic, c)
      | (t, .diverge, c) => ([.branch false] ++ t, .diverge, c) := by cases k <;> first | exact absurd rfl hk | rfl
    rw [e1, e2]
    rw [← e] at hp ⊢
    revert hp
    rcases (onWriterT (TlsWriter.writeAlertT m wk (Alert.fromTlsErr k))).run c with ⟨t, r, c'⟩
    intro hp
    cases r <;> exact ⟨rfl, hp⟩

theorem closeT_agrees : Agrees (HasKeys m wk rk) (closeT m wk) (close m) := onWriterT_agrees (TlsWriter.writeAlertT_agrees _)

theorem writeAllT_agrees (buf : Bytes) : Agrees (HasKeys m wk rk) (writeAllT m wk buf) (writeAll m buf) := by
  intro c hc
  obtain ⟨e, hp⟩ := onWriterT_agrees (rk := rk) (TlsWriter.writeApplicationDataT_agrees (m := m) (key := wk) buf) c hc
  unfold writeAllT writeAll
  dsimp only
  rw [← e] at hp ⊢
  revert hp
  rcases (onWriterT (TlsWriter.writeApplicationDataT m wk buf)).run c with ⟨t, r, c'⟩
  intro hp
  cases r with
  | err k => exact (Agrees.bind (sendTlsAlertT_agrees (rk := rk) k) fun k' => Agrees.lift (.err k' : Res Unit)) c' hp
  | ok a => exact ⟨rfl, hp⟩
  | panic => exact ⟨rfl, hp⟩
  | diverge => exact ⟨rfl, hp⟩

theorem writeT_agrees (buf : Bytes) : Agrees (HasKeys m wk rk) (writeT m wk buf) (write m buf) := Agrees.bind (writeAllT_agrees buf) fun _ => Agrees.pure _

theorem refillT_agrees : Agrees (HasKeys m wk rk) (refillT m rk) (refill m) := by
  intro c hc
  obtain ⟨e, hp⟩ := onReaderT_agrees (wk := wk) (TlsReader.readApplicationDataT_agrees (m := m) (key := rk)) c hc
  unfold refillT refill
  dsimp only
  by_cases h : c.buf.isEmpty = true
  · simp only [h, if_true]
    rw [← e] at hp ⊢
    revert hp
    rcases (onReaderT (TlsReader.readApplicationDataT m rk)).run c with ⟨t, r, c'⟩
    intro hp
    cases r <;> exact ⟨rfl, hp⟩
  · rw [if_neg h, if_neg h]
    exact ⟨rfl, hc⟩

theorem readLoopT_agrees (fuel n : Nat) (acc : Bytes) : Agrees (HasKeys m wk rk) (readLoopT m rk fuel n acc) (readLoop m fuel n acc) := by
  induction fuel generalizing n acc with
  | zero =>
    rw [readLoopT.eq_def, readLoop.eq_def]
    refine Agrees.test ?_
    by_cases h : n = 0
    · simp only [h, decide_true, if_true]; exact Agrees.pure _
    · simp only [h, decide_false, if_false, Bool.false_eq_true]; exact Agrees.lift _
  | succ fuel ih =>
    rw [readLoopT.eq_def, readLoop.eq_def]
    refine Agrees.test ?_
    by_cases h : n = 0
    · simp only [h, decide_true, if_true]; exact Agrees.pure _
    · simp only [h, decide_false, if_false, Bool.false_eq_true]
      refine Agrees.bind refillT_agrees fun b => ?_
      cases b with
      | false => exact Agrees.pure _
      | true =>
        refine Agrees.bind Agrees.get fun c => Agrees.see (Agrees.see (Agrees.see (Agrees.bind (Agrees.quiet fun _ h => h) fun _ => ih _ _)))

theorem readT_agrees (n : Nat) : Agrees (HasKeys m wk rk) (readT m rk n) (read m n) := Agrees.bind Agrees.get fun _ => readLoopT_agrees _ _ _

end TlsClient

end Husk
