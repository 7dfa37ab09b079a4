import Verif.Props.Chunking
import Verif.Props.NoDeadlock
/-! C123: what the client does depends only on what has come. -/

namespace Husk

open Item Spec TlsReader TlsClient

/-! ### Proofs: calls on an object whose transport has more to give -/

/-- A call that only adds to what is on the wire (`w` of the object). -/
def Grows (w : σ → Bytes) (x : St σ α) : Prop := ∀ s, w s <+: w (x.run s).2

namespace Grows

variable {w : σ → Bytes}

theorem pure (a : α) : Grows w (pure a : St σ α) := fun _ => List.prefix_rfl
theorem lift (r : Res α) : Grows w (St.lift r : St σ α) := fun _ => List.prefix_rfl
theorem err (k) : Grows w (St.err k : St σ α) := fun _ => List.prefix_rfl
theorem panic : Grows w (St.panic : St σ α) := fun _ => List.prefix_rfl

theorem bind {x : St σ α} {f : α → St σ β} (hx : Grows w x) (hf : ∀ a, Grows w (f a)) : Grows w (x >>= f) := by
  intro s
  have h1 := hx s
  rw [St.bind_run]
  rcases es : x.run s with ⟨r, s'⟩
  rw [es] at h1
  cases r with
  | ok a => exact h1.trans (hf a s')
  | err k => exact h1
  | panic => exact h1
  | diverge => exact h1

theorem get_bind {f : σ → St σ β} (hf : ∀ s, Grows w (f s)) : Grows w (St.get >>= f) := fun s => hf s s

theorem ite {c : Prop} [Decidable c] {x y : St σ α} (hx : Grows w x) (hy : Grows w y) : Grows w (if c then x else y) := by
  split
  · exact hx
  · exact hy

theorem nothing (x : St σ α) : Grows (fun _ : σ => []) x := fun _ => List.prefix_rfl

end Grows

/-- The call has stopped: for want of bytes, or for a failure of the transport. -/
def Stopped (r : Res α) : Prop := r = .err .IoFailure ∨ r = .diverge

/-- A call that, on an object that has more to come (`R`), does the same, or else has stopped for want of it and has sent no more than the other; if `E`
and it was an error that stopped it, the other has stopped with the same, and has sent the same. -/
def Ahead (E : Prop) (R : σ → σ → Prop) (w : σ → Bytes) (x : St σ α) : Prop := ∀ s t, R s t →
  (Stopped (x.run s).1 ∧ w (x.run s).2 <+: w (x.run t).2 ∧ (E → (x.run s).1 = .err .IoFailure → (x.run t).1 = .err .IoFailure ∧ w (x.run s).2 = w (x.run t).2)) ∨
  ((x.run s).1 = (x.run t).1 ∧ R (x.run s).2 (x.run t).2)

namespace Ahead

variable {E : Prop} {R : σ → σ → Prop} {w : σ → Bytes}

theorem same {x : St σ α} (h : Respects R x) : Ahead E R w x := fun s t hst => Or.inr (h s t hst)

theorem bind {x : St σ α} {f : α → St σ β} (hx : Ahead E R w x) (hf : ∀ a, Ahead E R w (f a)) (hg : ∀ a, Grows w (f a)) : Ahead E R w (x >>= f) := by
  intro s t h
  rw [St.bind_run, St.bind_run]
  have h1 := hx s t h
  rcases es : x.run s with ⟨r, s'⟩
  rcases et : x.run t with ⟨r', t'⟩
  rw [es, et] at h1
  dsimp only at h1
  rcases h1 with ⟨h1, h2, h4⟩ | ⟨rfl, h2⟩
  · rcases h1 with rfl | rfl
    · refine Or.inl ⟨Or.inl rfl, ?_, fun e _ => ?_⟩
      · cases r' with
        | ok a => exact h2.trans (hg a t')
        | err k => exact h2
        | panic => exact h2
        | diverge => exact h2
      · obtain ⟨rfl, h5⟩ := h4 e rfl
        exact ⟨rfl, h5⟩
    · refine Or.inl ⟨Or.inr rfl, ?_, fun _ e => nomatch e⟩
      cases r' with
      | ok a => exact h2.trans (hg a t')
      | err k => exact h2
      | panic => exact h2
      | diverge => exact h2
  · cases r with
    | ok a => exact hf a _ _ h2
    | err k => exact Or.inr ⟨rfl, h2⟩
    | panic => exact Or.inr ⟨rfl, h2⟩
    | diverge => exact Or.inr ⟨rfl, h2⟩

theorem pure (a : α) : Ahead E R w (pure a : St σ α) := same (.pure a)
theorem lift (r : Res α) : Ahead E R w (St.lift r : St σ α) := same (.lift r)
theorem err (k) : Ahead E R w (St.err k : St σ α) := same (.err k)

theorem get_bind {f : σ → St σ β} (hf : ∀ s, Ahead E R w (f s)) (he : ∀ s t, R s t → f s = f t) : Ahead E R w (St.get >>= f) := by
  intro s t h
  have e1 : (St.get >>= f).run s = (f s).run s := rfl
  have e2 : (St.get >>= f).run t = (f t).run t := rfl
  rw [e1, e2, he s t h]
  exact hf t s t h

theorem ite {c : Prop} [Decidable c] {x y : St σ α} (hx : Ahead E R w x) (hy : Ahead E R w y) : Ahead E R w (if c then x else y) := by
  split
  · exact hx
  · exact hy

end Ahead

/-- The second reader has `q` to give after what the first has. -/
def Reader.Later (q : List Sym) (r r' : Reader) : Prop := r'.stream = r.stream ++ q

/-- What is to come begins with an error of the transport. -/
def StopsFirst (q : List Sym) : Prop := ∃ l, q = .stop :: l

theorem takeBytes_stop {n : Nat} {l : List Sym} (l2 : List Sym) (h : (takeBytes n l).1 = none) : (takeBytes n (l ++ .stop :: l2)).1 = none := by
  induction n generalizing l with
  | zero => cases h
  | succ n ih =>
    match l with
    | [] => rfl
    | .stop :: l => rfl
    | .byte b :: l =>
      simp only [List.cons_append, takeBytes] at h ⊢
      rcases e : takeBytes n l with ⟨_ | bs, l'⟩
      · have := ih (by rw [e] : (takeBytes n l).1 = none)
        rcases e' : takeBytes n (l ++ .stop :: l2) with ⟨_ | bs, l''⟩
        · rfl
        · rw [e'] at this; cases this
      · rw [e] at h; cases h

theorem Reader.readExact_ahead (q : List Sym) (n : Nat) : Ahead (StopsFirst q) (Reader.Later q) (fun _ => []) (Reader.readExact n) := by
  intro r r' h
  obtain ⟨a, ha1, ha2⟩ := readExact_spec n r
  rcases e : takeBytes n r.stream with ⟨_ | bs, l⟩
  · rw [e] at ha1
    obtain ⟨b, hb1, -⟩ := readExact_spec n r'
    rw [ha1]
    refine Or.inl ⟨Or.inl rfl, List.prefix_rfl, fun ⟨l2, hq⟩ _ => ⟨?_, rfl⟩⟩
    have hn := takeBytes_stop l2 (by rw [e] : (takeBytes n r.stream).1 = none)
    rcases e' : takeBytes n r'.stream with ⟨_ | bs, l⟩
    · rw [hb1, e']; rfl
    · rw [← hq, ← h, e'] at hn; cases hn
  · rw [e] at ha1 ha2
    have hl := takeBytes_length e
    have hs := takeBytes_some e
    obtain ⟨b, hb1, hb2⟩ := readExact_ok (r := r') (b := bs) (l := l ++ q) hl (by rw [h, hs, List.append_assoc])
    rw [ha1, hb1]
    refine Or.inr ⟨rfl, ?_⟩
    show b.stream = a.stream ++ q
    rw [hb2, ha2]

namespace TlsReader

/-- The second has `q` to give after what the first has; otherwise they are the same. -/
def Later (q : List Sym) (s t : TlsReader) : Prop :=
  t.reader.stream = s.reader.stream ++ q ∧ s.decryptor = t.decryptor ∧ s.readCount = t.readCount ∧ s.handshakeBuffer = t.handshakeBuffer ∧ s.iv = t.iv

/-- Nothing is sent by a reader. -/
abbrev silent : TlsReader → Bytes := fun _ => []

variable {q : List Sym}

theorem io_ahead {x : St Reader α} (hx : Ahead (StopsFirst q) (Reader.Later q) (fun _ => []) x) : Ahead (StopsFirst q) (Later q) silent (io x) := by
  intro s t h
  rcases hx _ _ h.1 with ⟨h1, -, h3⟩ | ⟨h1, h2⟩
  · exact Or.inl ⟨h1, List.prefix_rfl, fun e e' => ⟨(h3 e e').1, rfl⟩⟩
  · exact Or.inr ⟨h1, h2, h.2⟩

theorem onBuffer_later (x : St HandshakeBuffer α) : Respects (Later q) (onBuffer x) := by
  intro s t h
  obtain ⟨a, b, c, d, e⟩ := h
  simp only [onBuffer, St.zoom_run]
  rw [d]
  exact ⟨rfl, a, b, c, rfl, e⟩

theorem unprotect_later {s t : TlsReader} (h : Later q s t) (ty : ContentType) (a b : UInt8) (f : Bytes) : s.unprotect ty a b f = t.unprotect ty a b f := by
  obtain ⟨_, h1, h2, _, h3⟩ := h
  unfold unprotect nonce ad
  rw [h1, h2, h3]

theorem bump_later (m : Mode) : Respects (Later q) (bump m) := by
  intro s t h
  obtain ⟨a, b, c, d, e⟩ := h
  simp only [bump]
  rw [c]
  cases addU64 m t.readCount 1 <;> exact ⟨rfl, a, b, by first | rfl | exact c, d, e⟩

theorem setIv_later (iv : Bytes) : Respects (Later q) (TlsReader.setIv iv) := by
  intro s t h
  obtain ⟨a, b, c, d, e⟩ := h
  simp only [TlsReader.setIv, e]
  cases t.iv with
  | none => exact ⟨rfl, a, b, c, d, rfl⟩
  | some _ => exact ⟨rfl, a, b, c, d, e⟩

theorem setDecryptor_later (x : Decryptor) : Respects (Later q) (TlsReader.setDecryptor x) := by
  intro s t h
  obtain ⟨a, b, c, d, e⟩ := h
  simp only [TlsReader.setDecryptor, b]
  cases t.decryptor with
  | none => exact ⟨rfl, a, rfl, rfl, d, e⟩
  | some _ => exact ⟨rfl, a, b, c, d, e⟩

/-- `Ahead.bind` on readers. -/
theorem ahead_bind {x : St TlsReader α} {f : α → St TlsReader β} (hx : Ahead (StopsFirst q) (Later q) silent x) (hf : ∀ a, Ahead (StopsFirst q) (Later q) silent (f a)) : Ahead (StopsFirst q) (Later q) silent (x >>= f) :=
  hx.bind hf fun _ => .nothing _

theorem readU8_ahead : Ahead (StopsFirst q) (Reader.Later q) (fun _ => []) Reader.readU8 := (Reader.readExact_ahead q 1).bind (fun _ => .pure _) fun _ => .nothing _
theorem readBeU16_ahead : Ahead (StopsFirst q) (Reader.Later q) (fun _ => []) Reader.readBeU16 := (Reader.readExact_ahead q 2).bind (fun _ => .pure _) fun _ => .nothing _

theorem readRecord_ahead (m : Mode) : Ahead (StopsFirst q) (Later q) silent (readRecord m) := by
  refine ahead_bind (io_ahead readU8_ahead) fun ty => ?_
  cases ContentType.ofU8 ty with
  | none => exact .err _
  | some ty =>
    refine ahead_bind (io_ahead readU8_ahead) fun a => ?_
    refine ahead_bind (io_ahead readU8_ahead) fun b => ?_
    refine ahead_bind (io_ahead readBeU16_ahead) fun len => ?_
    refine .ite (.err _) ?_
    refine ahead_bind (io_ahead (Reader.readExact_ahead q _)) fun f => ?_
    refine .get_bind (fun s => ?_) (fun s t h => by rw [unprotect_later h])
    exact ahead_bind (.lift _) fun _ => ahead_bind (.same (bump_later m)) fun _ => .pure _

theorem messageStep_ahead (m : Mode) : Ahead (StopsFirst q) (Later q) silent (messageStep m) := by
  refine ahead_bind (readRecord_ahead m) fun r => ?_
  cases r.contentType with
  | ChangeCipherSpecTy => exact ahead_bind (.lift _) fun _ => .pure _
  | AlertTy => exact ahead_bind (.lift _) fun _ => .pure _
  | HandshakeTy =>
    refine .ite (.err _) ?_
    refine ahead_bind (.same (onBuffer_later _)) fun _ => ?_
    refine ahead_bind (.same (onBuffer_later _)) fun h => ?_
    cases h <;> exact .pure _
  | ApplicationDataTy => exact .pure _

/-- The loop with more fuel, on a reader that has more to give. -/
theorem messageLoop_later (m : Mode) (k : Nat) : ∀ (fuel : Nat) (s t : TlsReader), Later q s t →
    (Stopped ((messageLoop m fuel).run s).1 ∧ (StopsFirst q → ((messageLoop m fuel).run s).1 = .err .IoFailure → ((messageLoop m (fuel + k)).run t).1 = .err .IoFailure)) ∨
    (((messageLoop m fuel).run s).1 = ((messageLoop m (fuel + k)).run t).1 ∧ Later q ((messageLoop m fuel).run s).2 ((messageLoop m (fuel + k)).run t).2) := by
  intro fuel
  induction fuel with
  | zero => exact fun s t _ => Or.inl ⟨Or.inr rfl, fun _ e => nomatch e⟩
  | succ fuel ih =>
    intro s t h
    rw [show fuel + 1 + k = (fuel + k) + 1 by omega, messageLoop, messageLoop, St.bind_run, St.bind_run]
    have h1 := messageStep_ahead m s t h
    rcases es : (messageStep m).run s with ⟨r, s'⟩
    rcases et : (messageStep m).run t with ⟨r', t'⟩
    rw [es, et] at h1
    dsimp only at h1
    rcases h1 with ⟨h1, -, h4⟩ | ⟨rfl, h2⟩
    · rcases h1 with rfl | rfl
      · refine Or.inl ⟨Or.inl rfl, fun e _ => ?_⟩
        obtain ⟨rfl, -⟩ := h4 e rfl
        rfl
      · exact Or.inl ⟨Or.inr rfl, fun _ e => nomatch e⟩
    · cases r with
      | ok o =>
        cases o with
        | some msg => exact Or.inr ⟨rfl, h2⟩
        | none => exact ih _ _ h2
      | err k => exact Or.inr ⟨rfl, h2⟩
      | panic => exact Or.inr ⟨rfl, h2⟩
      | diverge => exact Or.inr ⟨rfl, h2⟩

theorem readMessage_ahead (m : Mode) : Ahead (StopsFirst q) (Later q) silent (readMessage m) := by
  refine ahead_bind (.same (onBuffer_later _)) fun o => ?_
  cases o with
  | some h => exact .pure _
  | none =>
    intro s t h
    have e : t.reader.bytes + 1 = s.reader.bytes + 1 + countBytes q := by rw [Reader.bytes_eq, Reader.bytes_eq, h.1, countBytes_append]; omega
    show (Stopped ((messageLoop m (s.reader.bytes + 1)).run s).1 ∧ _ ∧ (StopsFirst q → ((messageLoop m (s.reader.bytes + 1)).run s).1 = .err .IoFailure → ((messageLoop m (t.reader.bytes + 1)).run t).1 = .err .IoFailure ∧ _)) ∨
      ((((messageLoop m (s.reader.bytes + 1)).run s).1 = ((messageLoop m (t.reader.bytes + 1)).run t).1) ∧
      Later q ((messageLoop m (s.reader.bytes + 1)).run s).2 ((messageLoop m (t.reader.bytes + 1)).run t).2)
    rw [e]
    rcases messageLoop_later m (countBytes q) (s.reader.bytes + 1) s t h with ⟨h1, h2⟩ | h1
    · exact Or.inl ⟨h1, List.prefix_rfl, fun e e' => ⟨h2 e e', rfl⟩⟩
    · exact Or.inr h1

theorem readHandshake_ahead (m : Mode) : Ahead (StopsFirst q) (Later q) silent (readHandshake m) := by
  refine ahead_bind (readMessage_ahead m) fun msg => ?_
  cases msg with
  | HandshakeMessage h => exact .pure _
  | ChangeCipherSpecMessage => exact .err _
  | AlertMessage a => exact .err _
  | ApplicationDataMessage b => exact .err _

theorem readChangeCipherSpec_ahead (m : Mode) : Ahead (StopsFirst q) (Later q) silent (readChangeCipherSpec m) := by
  refine ahead_bind (readMessage_ahead m) fun msg => ?_
  cases msg with
  | HandshakeMessage h => exact .err _
  | ChangeCipherSpecMessage => exact .pure _
  | AlertMessage a => exact .err _
  | ApplicationDataMessage b => exact .err _

end TlsReader

namespace TlsWriter

/-- What is on the wire. -/
abbrev sentBytes (s : TlsWriter) : Bytes := s.writer.wire

theorem writeAll_grows (b : Bytes) : Grows (·.wire) (Writer.writeAll b) := by
  intro s
  simp only [Writer.writeAll]
  split
  · exact List.prefix_rfl
  · split <;> exact ⟨_, rfl⟩

theorem io_grows {x : St Writer α} (h : Grows (·.wire) x) : Grows sentBytes (io x) := fun s => h s.writer

theorem protect_grows (r : Record) : Grows sentBytes (protect r) := by
  intro s
  simp only [protect]
  split
  · exact List.prefix_rfl
  · split <;> exact List.prefix_rfl

theorem bump_grows (m : Mode) : Grows sentBytes (bump m) := by
  intro s
  simp only [bump]
  split <;> exact List.prefix_rfl

theorem writeRecord_grows (m : Mode) (r : Record) : Grows sentBytes (writeRecord m r) :=
  .bind (protect_grows r) fun _ => .ite .panic <| .bind (io_grows (writeAll_grows _)) fun _ => .bind (io_grows (writeAll_grows _)) fun _ =>
    .bind (io_grows (writeAll_grows _)) fun _ => .bind (io_grows (writeAll_grows _)) fun _ => .bind (io_grows (writeAll_grows _)) fun _ => bump_grows m

theorem writeChunks_grows (m : Mode) (ty : ContentType) : ∀ cs, Grows sentBytes (writeChunks m ty cs)
  | [] => .pure _
  | _ :: cs => .bind (.lift _) fun _ => .bind (writeRecord_grows m _) fun _ => writeChunks_grows m ty cs

theorem writeData_grows (m : Mode) (ty : ContentType) (data : Bytes) : Grows sentBytes (writeData m ty data) := writeChunks_grows m ty _

theorem setEncryptor_grows (e : Encryptor) : Grows sentBytes (setEncryptor e) := by
  intro s
  simp only [setEncryptor]
  split <;> exact List.prefix_rfl

theorem setIv_grows (iv : Bytes) : Grows sentBytes (setIv iv) := by
  intro s
  simp only [setIv]
  split <;> exact List.prefix_rfl

end TlsWriter

namespace TlsClient

/-- What is on the wire. -/
abbrev sentBytes (c : TlsClient) : Bytes := c.writer.writer.wire

/-- The second has `q` to read after what the first has; otherwise they are the same. -/
def Later (q : List Sym) (c d : TlsClient) : Prop := TlsReader.Later q c.reader d.reader ∧ c.writer = d.writer ∧ c.rng = d.rng ∧ c.buf = d.buf

variable {q : List Sym}

theorem onReader_grows (x : St TlsReader α) : Grows sentBytes (onReader x) := fun _ => List.prefix_rfl
theorem onRng_grows (x : St Rng α) : Grows sentBytes (onRng x) := fun _ => List.prefix_rfl
theorem onWriter_grows {x : St TlsWriter α} (h : Grows TlsWriter.sentBytes x) : Grows sentBytes (onWriter x) := fun c => h c.writer

theorem onReader_ahead {x : St TlsReader α} (hx : Ahead (StopsFirst q) (TlsReader.Later q) silent x) : Ahead (StopsFirst q) (Later q) sentBytes (onReader x) := by
  intro c d h
  rcases hx _ _ h.1 with ⟨h1, -, h3⟩ | ⟨h1, h2⟩
  · refine Or.inl ⟨h1, ?_, fun e e' => ⟨(h3 e e').1, ?_⟩⟩
    · show c.writer.writer.wire <+: d.writer.writer.wire
      rw [h.2.1]
    · show c.writer.writer.wire = d.writer.writer.wire
      rw [h.2.1]
  · exact Or.inr ⟨h1, h2, h.2⟩

theorem onWriter_later (x : St TlsWriter α) : Respects (Later q) (onWriter x) := by
  intro c d h
  obtain ⟨a, b, e, f⟩ := h
  simp only [onWriter, St.zoom_run]
  rw [b]
  exact ⟨rfl, a, rfl, e, f⟩

theorem onRng_later (x : St Rng α) : Respects (Later q) (onRng x) := by
  intro c d h
  obtain ⟨a, b, e, f⟩ := h
  simp only [onRng, St.zoom_run]
  rw [e]
  exact ⟨rfl, a, b, rfl, f⟩

theorem writeHandshake_grows (m : Mode) (h : Handshake) : Grows sentBytes (onWriter (TlsWriter.writeHandshake m h)) :=
  onWriter_grows (.bind (.lift _) fun _ => TlsWriter.writeData_grows m _ _)

theorem installKeys_grows (m : Mode) (a b c : Bytes) : Grows sentBytes (installKeys m a b c) :=
  .bind (.lift _) fun _ => .bind (.lift _) fun _ => .bind (onWriter_grows (TlsWriter.setEncryptor_grows _)) fun _ =>
    .bind (.lift _) fun _ => .bind (.lift _) fun _ => .bind (.lift _) fun _ =>
    .bind (onWriter_grows (TlsWriter.setIv_grows _)) fun _ => .bind (onReader_grows _) fun _ => .pure _

theorem sendFinished_grows (m : Mode) (cr : Bytes) (h : Handshake) (f : ServerFlight) : Grows sentBytes (sendFinished m cr h f) :=
  .bind (.lift _) fun _ => .bind (writeHandshake_grows m _) fun _ => .bind (onWriter_grows (TlsWriter.writeData_grows m _ _)) fun _ =>
    .bind (.lift _) fun _ => .bind (installKeys_grows m _ _ _) fun _ => .bind (.lift _) fun _ =>
    .bind (.lift _) fun _ => .bind (.lift _) fun _ => .bind (writeHandshake_grows m _) fun _ => .pure _

theorem readFinished_grows (m : Mode) (a b c : Bytes) (h : Handshake) : Grows sentBytes (readFinished m a b c h) :=
  .bind (onReader_grows _) fun _ => .bind (onReader_grows _) fun _ => .bind (onReader_grows _) fun _ => .lift _

theorem readFlight_grows (m : Mode) : Grows sentBytes (readFlight m) :=
  .bind (onReader_grows _) fun _ => .bind (.lift _) fun _ => .bind (onReader_grows _) fun _ => .bind (onReader_grows _) fun _ =>
    .bind (onRng_grows _) fun _ => .bind (onReader_grows _) fun _ => .pure _

theorem sendHello_later (m : Mode) : Respects (Later q) (sendHello m) :=
  Respects.bind (onRng_later _) fun _ => Respects.bind (Respects.lift _) fun _ => Respects.bind (onWriter_later _) fun _ => Respects.pure _

theorem expect_ahead (m : Mode) {f : Handshake → St TlsReader α} (hf : ∀ h, Ahead (StopsFirst q) (TlsReader.Later q) silent (f h)) : Ahead (StopsFirst q) (TlsReader.Later q) silent (readHandshake m >>= f) :=
  ahead_bind (readHandshake_ahead m) hf

theorem expectServerHello_ahead (m : Mode) : Ahead (StopsFirst q) (TlsReader.Later q) silent (expectServerHello m) :=
  expect_ahead m fun h => by cases h <;> first | exact .pure _ | exact .err _
theorem expectCertificate_ahead (m : Mode) : Ahead (StopsFirst q) (TlsReader.Later q) silent (expectCertificate m) :=
  expect_ahead m fun h => by cases h <;> first | exact .pure _ | exact .err _
theorem expectServerKeyExchange_ahead (m : Mode) : Ahead (StopsFirst q) (TlsReader.Later q) silent (expectServerKeyExchange m) :=
  expect_ahead m fun h => by cases h <;> first | exact .pure _ | exact .err _
theorem expectServerHelloDone_ahead (m : Mode) : Ahead (StopsFirst q) (TlsReader.Later q) silent (expectServerHelloDone m) :=
  expect_ahead m fun h => by cases h <;> first | exact .pure _ | exact .err _
theorem expectFinished_ahead (m : Mode) : Ahead (StopsFirst q) (TlsReader.Later q) silent (expectFinished m) :=
  expect_ahead m fun h => by cases h <;> first | exact .pure _ | exact .err _

theorem readFlight_ahead (m : Mode) : Ahead (StopsFirst q) (Later q) sentBytes (readFlight m) :=
  .bind (onReader_ahead (expectServerHello_ahead m)) (fun _ => .bind (.lift _) (fun _ => .bind (onReader_ahead (expectCertificate_ahead m)) (fun _ =>
    .bind (onReader_ahead (expectServerKeyExchange_ahead m)) (fun _ => .bind (.same (onRng_later _)) (fun _ =>
      .bind (onReader_ahead (expectServerHelloDone_ahead m)) (fun _ => .pure _) fun _ => .pure _)
      fun _ => .bind (onReader_grows _) fun _ => .pure _)
      fun _ => .bind (onRng_grows _) fun _ => .bind (onReader_grows _) fun _ => .pure _)
      fun _ => .bind (onReader_grows _) fun _ => .bind (onRng_grows _) fun _ => .bind (onReader_grows _) fun _ => .pure _)
      fun _ => .bind (onReader_grows _) fun _ => .bind (onReader_grows _) fun _ => .bind (onRng_grows _) fun _ => .bind (onReader_grows _) fun _ => .pure _)
      fun _ => .bind (.lift _) fun _ => .bind (onReader_grows _) fun _ => .bind (onReader_grows _) fun _ => .bind (onRng_grows _) fun _ => .bind (onReader_grows _) fun _ => .pure _

theorem onReader_later {x : St TlsReader α} (hx : Respects (TlsReader.Later q) x) : Respects (Later q) (onReader x) := by
  intro c d h
  obtain ⟨h1, h2⟩ := hx _ _ h.1
  exact ⟨h1, h2, h.2⟩

theorem installKeys_later (m : Mode) (a b c : Bytes) : Respects (Later q) (installKeys m a b c) :=
  Respects.bind (Respects.lift _) fun _ => Respects.bind (Respects.lift _) fun _ => Respects.bind (onWriter_later _) fun _ =>
    Respects.bind (Respects.lift _) fun _ => Respects.bind (Respects.lift _) fun _ => Respects.bind (Respects.lift _) fun _ =>
    Respects.bind (onWriter_later _) fun _ => Respects.bind (onReader_later (setIv_later _)) fun _ => Respects.pure _

theorem sendFinished_later (m : Mode) (cr : Bytes) (h : Handshake) (f : ServerFlight) : Respects (Later q) (sendFinished m cr h f) :=
  Respects.bind (Respects.lift _) fun _ => Respects.bind (onWriter_later _) fun _ => Respects.bind (onWriter_later _) fun _ =>
    Respects.bind (Respects.lift _) fun _ => Respects.bind (installKeys_later m _ _ _) fun _ => Respects.bind (Respects.lift _) fun _ =>
    Respects.bind (Respects.lift _) fun _ => Respects.bind (Respects.lift _) fun _ => Respects.bind (onWriter_later _) fun _ => Respects.pure _

theorem readFinished_ahead (m : Mode) (a b c : Bytes) (h : Handshake) : Ahead (StopsFirst q) (Later q) sentBytes (readFinished m a b c h) :=
  .bind (onReader_ahead (readChangeCipherSpec_ahead m)) (fun _ => .bind (.same (onReader_later (setDecryptor_later _))) (fun _ =>
    .bind (onReader_ahead (expectFinished_ahead m)) (fun _ => .lift _) fun _ => .lift _)
    fun _ => .bind (onReader_grows _) fun _ => .lift _)
    fun _ => .bind (onReader_grows _) fun _ => .bind (onReader_grows _) fun _ => .lift _

theorem handshake_ahead (m : Mode) : Ahead (StopsFirst q) (Later q) sentBytes (handshake m) :=
  .bind (.same (sendHello_later m)) (fun _ => .bind (readFlight_ahead m) (fun _ => .bind (.same (sendFinished_later m _ _ _)) (fun _ => readFinished_ahead m _ _ _ _)
    fun _ => readFinished_grows m _ _ _ _)
    fun _ => .bind (sendFinished_grows m _ _ _) fun _ => readFinished_grows m _ _ _ _)
    fun _ => .bind (readFlight_grows m) fun _ => .bind (sendFinished_grows m _ _ _) fun _ => readFinished_grows m _ _ _ _

theorem sendTlsAlert_later (m : Mode) (k : TlsErrorKind) : Respects (Later q) (sendTlsAlert m k) := by
  intro c d h
  obtain ⟨r, c', d', h1, h2, h3⟩ := Respects.cases (onWriter_later (TlsWriter.writeAlert m (Alert.fromTlsErr k))) h
  cases k <;> simp only [sendTlsAlert, h1, h2] <;> first | exact ⟨trivial, h⟩ | (cases r <;> exact ⟨rfl, h3⟩)

theorem sendTlsAlert_grows (m : Mode) (k : TlsErrorKind) : Grows sentBytes (sendTlsAlert m k) := by
  intro c
  have h : Grows sentBytes (onWriter (TlsWriter.writeAlert m (Alert.fromTlsErr k))) := onWriter_grows (.bind (.lift _) fun _ => TlsWriter.writeData_grows m _ _)
  have h := h c
  rcases e : (onWriter (TlsWriter.writeAlert m (Alert.fromTlsErr k))).run c with ⟨r, c'⟩
  rw [e] at h
  cases k <;> simp only [sendTlsAlert, e] <;> first | exact List.prefix_rfl | (cases r <;> exact h)


theorem new_ahead (m : Mode) {rd rd' : Reader} (h : rd'.stream = rd.stream ++ q) (wr : Writer) (rng : Rng) :
    (Stopped (TlsClient.new m rd wr rng).1 ∧ (TlsClient.new m rd wr rng).2.sentBytes <+: (TlsClient.new m rd' wr rng).2.sentBytes ∧
      (StopsFirst q → (TlsClient.new m rd wr rng).1 = .err .IoFailure → (TlsClient.new m rd' wr rng).1 = .err .IoFailure ∧ (TlsClient.new m rd wr rng).2.sentBytes = (TlsClient.new m rd' wr rng).2.sentBytes)) ∨
    ((TlsClient.new m rd wr rng).1 = (TlsClient.new m rd' wr rng).1 ∧ Later q (TlsClient.new m rd wr rng).2 (TlsClient.new m rd' wr rng).2) := by
  have hs : Later q (fresh rd wr rng) (fresh rd' wr rng) := ⟨⟨h, rfl, rfl, rfl, rfl⟩, rfl, rfl, rfl⟩
  rw [new_run, new_run]
  have h1 := handshake_ahead m _ _ hs
  rcases es : (handshake m).run (fresh rd wr rng) with ⟨r, c⟩
  rcases et : (handshake m).run (fresh rd' wr rng) with ⟨r', d⟩
  rw [es, et] at h1
  dsimp only at h1
  rcases h1 with ⟨h1, h2, h4⟩ | ⟨rfl, h2⟩
  · rcases h1 with rfl | rfl
    · refine Or.inl ⟨Or.inl rfl, ?_, fun e _ => ?_⟩
      · cases r' with
        | err k => exact h2.trans (Grows.bind (sendTlsAlert_grows m k) (fun _ => Grows.err _) d)
        | ok _ => exact h2
        | panic => exact h2
        | diverge => exact h2
      · obtain ⟨rfl, h5⟩ := h4 e rfl
        exact ⟨rfl, h5⟩
    · refine Or.inl ⟨Or.inr rfl, ?_, fun _ e => nomatch e⟩
      cases r' with
      | err k => exact h2.trans (Grows.bind (sendTlsAlert_grows m k) (fun _ => Grows.err _) d)
      | ok _ => exact h2
      | panic => exact h2
      | diverge => exact h2
  · cases r with
    | err k => exact Or.inr (Respects.bind (sendTlsAlert_later m k) (fun _ => Respects.err _) _ _ h2)
    | ok _ => exact Or.inr ⟨rfl, h2⟩
    | panic => exact Or.inr ⟨rfl, h2⟩
    | diverge => exact Or.inr ⟨rfl, h2⟩

theorem readApplicationData_ahead (m : Mode) : Ahead (StopsFirst q) (TlsReader.Later q) silent (TlsReader.readApplicationData m) := by
  refine .get_bind (fun s => ?_) fun s t h => by rw [h.2.1]
  exact .ite (.same .panic) (ahead_bind (readMessage_ahead m) fun _ => .lift _)

/-- The loop of `read`, when it fills the buffer. -/
theorem readLoop_later (m : Mode) (k : Nat) : ∀ (fuel n : Nat) (acc : Bytes) (c d : TlsClient), Later q c d → ∀ a c', (readLoop m fuel n acc).run c = (.ok a, c') →
    a.length = acc.length + n → ∃ d', (readLoop m (fuel + k) n acc).run d = (.ok a, d') ∧ Later q c' d' := by
  intro fuel
  induction fuel with
  | zero =>
    intro n acc c d h a c' hr hl
    rw [readLoop.eq_def] at hr ⊢
    dsimp only at hr ⊢
    by_cases hn : n = 0
    · rw [if_pos hn] at hr ⊢
      cases hr
      exact ⟨d, rfl, h⟩
    · rw [if_neg hn] at hr
      cases hr
  | succ fuel ih =>
    intro n acc c d h a c' hr hl
    rw [show fuel + 1 + k = (fuel + k) + 1 by omega]
    rw [readLoop] at hr ⊢
    by_cases hn : n = 0
    · rw [if_pos hn] at hr ⊢
      cases hr
      exact ⟨d, rfl, h⟩
    rw [if_neg hn] at hr ⊢
    dsimp only at hr ⊢
    -- after the refill
    have key : ∀ c1 d1, Later q c1 d1 → (refill m).run c = (.ok true, c1) → (refill m).run d = (.ok true, d1) → ∃ d', (refill m >>= fun b => if b = true then do
          let c ← St.get
          let necessary := min n c.buf.length
          St.modify fun c => { c with buf := c.buf.drop necessary }
          readLoop m (fuel + k) (n - necessary) (acc ++ c.buf.take necessary)
        else return acc : St TlsClient Bytes).run d = (.ok a, d') ∧ Later q c' d' := by
      intro c1 d1 h1 e1 e2
      rw [St.bind_of_ok e1, if_pos rfl] at hr
      rw [St.bind_of_ok e2, if_pos rfl]
      have hb := h1.2.2.2
      replace hr : (readLoop m fuel (n - min n c1.buf.length) (acc ++ c1.buf.take (min n c1.buf.length))).run { c1 with buf := c1.buf.drop (min n c1.buf.length) } = (.ok a, c') := hr
      show ∃ d', (readLoop m (fuel + k) (n - min n d1.buf.length) (acc ++ d1.buf.take (min n d1.buf.length))).run { d1 with buf := d1.buf.drop (min n d1.buf.length) } = (.ok a, d') ∧ _
      rw [← hb]
      refine ih _ _ { c1 with buf := c1.buf.drop (min n c1.buf.length) } { d1 with buf := c1.buf.drop (min n c1.buf.length) } ⟨h1.1, h1.2.1, h1.2.2.1, rfl⟩ a c' hr ?_
      rw [hl, List.length_append, List.length_take]
      omega
    have short : ∀ c1, (refill m).run c = (.ok false, c1) → False := by
      intro c1 e1
      rw [St.bind_of_ok e1] at hr
      cases hr
      omega
    by_cases hb : c.buf.isEmpty
    · have hb' : d.buf.isEmpty := by rw [← h.2.2.2]; exact hb
      have h1 := onReader_ahead (readApplicationData_ahead m) c d h
      have ec : (refill m).run c = match (onReader (TlsReader.readApplicationData m)).run c with
        | (.ok data, c) => (.ok true, { c with buf := c.buf ++ data })
        | (.err _, c) => (.ok false, c)
        | (.panic, c) => (.panic, c)
        | (.diverge, c) => (.diverge, c) := by rw [refill]; exact if_pos hb
      have ed : (refill m).run d = match (onReader (TlsReader.readApplicationData m)).run d with
        | (.ok data, c) => (.ok true, { c with buf := c.buf ++ data })
        | (.err _, c) => (.ok false, c)
        | (.panic, c) => (.panic, c)
        | (.diverge, c) => (.diverge, c) := by rw [refill]; exact if_pos hb'
      rcases es : (onReader (TlsReader.readApplicationData m)).run c with ⟨r, c1⟩
      rcases et : (onReader (TlsReader.readApplicationData m)).run d with ⟨r', d1⟩
      rw [es] at ec
      rw [et] at ed
      rw [es, et] at h1
      dsimp only at h1 ec ed
      rcases h1 with ⟨rfl | rfl, -⟩ | ⟨rfl, h2⟩
      · exact (short _ ec).elim
      · rw [St.bind_of_diverge ec] at hr; cases hr
      · cases r with
        | ok data => exact key { c1 with buf := c1.buf ++ data } { d1 with buf := d1.buf ++ data } ⟨h2.1, h2.2.1, h2.2.2.1, by show c1.buf ++ data = d1.buf ++ data; rw [h2.2.2.2]⟩ ec ed
        | err k => exact (short _ ec).elim
        | panic => rw [St.bind_of_panic ec] at hr; cases hr
        | diverge => rw [St.bind_of_diverge ec] at hr; cases hr
    · have hb' : ¬ d.buf.isEmpty := by rw [← h.2.2.2]; exact hb
      exact key c d h (by rw [refill]; exact if_neg hb) (by rw [refill]; exact if_neg hb')

/-- What `read` has copied stays. -/
theorem readLoop_acc (m : Mode) : ∀ (fuel n : Nat) (acc : Bytes) (c : TlsClient) (a : Bytes) (c' : TlsClient), (readLoop m fuel n acc).run c = (.ok a, c') → acc <+: a := by
  intro fuel
  induction fuel with
  | zero =>
    intro n acc c a c' hr
    rw [readLoop.eq_def] at hr
    dsimp only at hr
    by_cases hn : n = 0
    · rw [if_pos hn] at hr
      cases hr
      exact List.prefix_rfl
    · rw [if_neg hn] at hr
      cases hr
  | succ fuel ih =>
    intro n acc c a c' hr
    rw [readLoop] at hr
    by_cases hn : n = 0
    · rw [if_pos hn] at hr
      cases hr
      exact List.prefix_rfl
    rw [if_neg hn] at hr
    obtain ⟨b, c1, -, hr⟩ := St.bind_eq_ok hr
    cases b with
    | false => cases hr; exact List.prefix_rfl
    | true =>
      replace hr : (readLoop m fuel (n - min n c1.buf.length) (acc ++ c1.buf.take (min n c1.buf.length))).run { c1 with buf := c1.buf.drop (min n c1.buf.length) } = (.ok a, c') := hr
      exact (List.prefix_append _ _).trans (ih _ _ _ _ _ hr)

/-- The loop of `read`, also when it does not fill the buffer. -/
theorem readLoop_prefix (m : Mode) (k : Nat) : ∀ (fuel n : Nat) (acc : Bytes) (c d : TlsClient), Later q c d → ∀ a c', (readLoop m fuel n acc).run c = (.ok a, c') →
    ∀ a' d', (readLoop m (fuel + k) n acc).run d = (.ok a', d') → a <+: a' := by
  intro fuel
  induction fuel with
  | zero =>
    intro n acc c d h a c' hr a' d' hr'
    rw [readLoop.eq_def] at hr
    dsimp only at hr
    by_cases hn : n = 0
    · rw [if_pos hn] at hr
      cases hr
      exact readLoop_acc m _ _ _ _ _ _ hr'
    · rw [if_neg hn] at hr
      cases hr
  | succ fuel ih =>
    intro n acc c d h a c' hr a' d' hr'
    have hacc := readLoop_acc m _ _ _ _ _ _ hr'
    rw [show fuel + 1 + k = (fuel + k) + 1 by omega] at hr'
    rw [readLoop] at hr hr'
    by_cases hn : n = 0
    · rw [if_pos hn] at hr
      cases hr
      exact hacc
    rw [if_neg hn] at hr hr'
    obtain ⟨b, c1, e1, hr⟩ := St.bind_eq_ok hr
    obtain ⟨b', d1, e2, hr'⟩ := St.bind_eq_ok hr'
    cases b with
    | false => cases hr; exact hacc
    | true =>
      have hcd : b' = true ∧ Later q c1 d1 := by
        by_cases hb : c.buf.isEmpty
        · have hb' : d.buf.isEmpty := by rw [← h.2.2.2]; exact hb
          have h1 := onReader_ahead (readApplicationData_ahead m) c d h
          simp only [refill, if_pos hb] at e1
          simp only [refill, if_pos hb'] at e2
          rcases es : (onReader (TlsReader.readApplicationData m)).run c with ⟨r, c2⟩
          rcases et : (onReader (TlsReader.readApplicationData m)).run d with ⟨r', d2⟩
          rw [es] at e1
          rw [et] at e2
          rw [es, et] at h1
          dsimp only at h1
          rcases h1 with ⟨rfl | rfl, -⟩ | ⟨rfl, h2⟩
          · cases e1
          · cases e1
          · cases r with
            | ok data =>
              cases e1
              cases e2
              exact ⟨rfl, h2.1, h2.2.1, h2.2.2.1, by show c2.buf ++ data = d2.buf ++ data; rw [h2.2.2.2]⟩
            | _ => cases e1
        · have hb' : ¬ d.buf.isEmpty := by rw [← h.2.2.2]; exact hb
          simp only [refill, if_neg hb] at e1
          simp only [refill, if_neg hb'] at e2
          cases e1
          cases e2
          exact ⟨rfl, h⟩
      obtain ⟨rfl, h1⟩ := hcd
      have hb := h1.2.2.2
      replace hr : (readLoop m fuel (n - min n c1.buf.length) (acc ++ c1.buf.take (min n c1.buf.length))).run { c1 with buf := c1.buf.drop (min n c1.buf.length) } = (.ok a, c') := hr
      replace hr' : (readLoop m (fuel + k) (n - min n d1.buf.length) (acc ++ d1.buf.take (min n d1.buf.length))).run { d1 with buf := d1.buf.drop (min n d1.buf.length) } = (.ok a', d') := hr'
      rw [← hb] at hr'
      exact ih _ _ { c1 with buf := c1.buf.drop (min n c1.buf.length) } { d1 with buf := c1.buf.drop (min n c1.buf.length) } ⟨h1.1, h1.2.1, h1.2.2.1, rfl⟩ a c' hr a' d' hr'

end TlsClient

/-! ### Theorems -/

/-- C123: what `new` has sent is the beginning of what it sends when more comes. -/
theorem C123_sent (m : Mode) (rd rd' : Reader) (wr : Writer) (rng : Rng) (q : List Sym) (h : rd'.stream = rd.stream ++ q) :
    (TlsClient.new m rd wr rng).2.writer.writer.wire <+: (TlsClient.new m rd' wr rng).2.writer.writer.wire := by
  rcases new_ahead m h wr rng with ⟨-, h1, -⟩ | ⟨-, h1⟩
  · exact h1
  · rw [h1.2.1]

/-- C123: when `new` has not ended for want of bytes, nothing that comes after changes its result or what it sent, and all of it is left for the calls to come. -/
theorem C123_result (m : Mode) (rd rd' : Reader) (wr : Writer) (rng : Rng) (q : List Sym) (h : rd'.stream = rd.stream ++ q) (x : Res Unit) (c : TlsClient)
    (hx : TlsClient.new m rd wr rng = (x, c)) (h1 : x ≠ .err .IoFailure) (h2 : x ≠ .diverge) :
    ∃ d, TlsClient.new m rd' wr rng = (x, d) ∧ d.reader.reader.stream = c.reader.reader.stream ++ q ∧ d = { c with reader := { c.reader with reader := d.reader.reader } } := by
  have hn := new_ahead m h wr rng
  rw [hx] at hn
  rcases hn with ⟨h3 | h3, -⟩ | ⟨h3, ⟨a, b, e, f, g⟩, i, j, k⟩
  · exact absurd h3 h1
  · exact absurd h3 h2
  · refine ⟨(TlsClient.new m rd' wr rng).2, Prod.ext h3.symm rfl, a, ?_⟩
    generalize (TlsClient.new m rd' wr rng).2 = d at *
    obtain ⟨⟨r, dd, n, hb, iv⟩, w, g1, bf⟩ := d
    dsimp only at *
    subst b e f g i j k
    rfl

/-- C123: the same of one message of the record layer. -/
theorem C123_message (m : Mode) (s t : TlsReader) (q : List Sym) (h : t.reader.stream = s.reader.stream ++ q) (he : t = { s with reader := t.reader }) (x : Res Message) (s' : TlsReader)
    (hx : (TlsReader.readMessage m).run s = (x, s')) (h1 : x ≠ .err .IoFailure) (h2 : x ≠ .diverge) :
    ∃ t', (TlsReader.readMessage m).run t = (x, t') ∧ t'.reader.stream = s'.reader.stream ++ q ∧ t' = { s' with reader := t'.reader } := by
  have hst : TlsReader.Later q s t := ⟨h, by rw [he], by rw [he], by rw [he], by rw [he]⟩
  have hn := readMessage_ahead m s t hst
  rw [hx] at hn
  rcases hn with ⟨h3 | h3, -⟩ | ⟨h3, a, b, e, f, g⟩
  · exact absurd h3 h1
  · exact absurd h3 h2
  · refine ⟨((TlsReader.readMessage m).run t).2, Prod.ext h3.symm rfl, a, ?_⟩
    generalize ((TlsReader.readMessage m).run t).2 = d at *
    obtain ⟨r, dd, n, hb, iv⟩ := d
    dsimp only at *
    subst b e f g
    rfl

/-- C123: a `read` that fills its buffer returns the same, whatever comes after, and leaves it. -/
theorem C123_read (m : Mode) (len : Nat) (c d : TlsClient) (q : List Sym) (h : d.reader.reader.stream = c.reader.reader.stream ++ q)
    (he : d = { c with reader := { c.reader with reader := d.reader.reader } }) (a : Bytes) (c' : TlsClient) (hx : (TlsClient.read m len).run c = (.ok a, c')) (hl : a.length = len) :
    ∃ d', (TlsClient.read m len).run d = (.ok a, d') ∧ d'.reader.reader.stream = c'.reader.reader.stream ++ q ∧
      d' = { c' with reader := { c'.reader with reader := d'.reader.reader } } := by
  have hcd : TlsClient.Later q c d := ⟨⟨h, by rw [he], by rw [he], by rw [he], by rw [he]⟩, by rw [he], by rw [he], by rw [he]⟩
  obtain ⟨d', g1, ⟨a, b, e, f, g⟩, i, j, k⟩ := readLoop_later m (countBytes q) (len + c.reader.reader.bytes + 1) len [] c d hcd a c' hx (by rw [hl]; exact (Nat.zero_add _).symm)
  have e1 : len + d.reader.reader.bytes + 1 = len + c.reader.reader.bytes + 1 + countBytes q := by rw [Reader.bytes_eq, Reader.bytes_eq, h, countBytes_append]; omega
  rw [← e1] at g1
  refine ⟨d', g1, a, ?_⟩
  obtain ⟨⟨r, dd, n, hb, iv⟩, w, g1, bf⟩ := d'
  dsimp only at *
  subst b e f g i j k
  rfl

/-- C123: a `read` that stopped before its buffer was full has returned the beginning of what it returns when more comes (if that is not an error). -/
theorem C123_read_short (m : Mode) (len : Nat) (c d : TlsClient) (q : List Sym) (h : d.reader.reader.stream = c.reader.reader.stream ++ q)
    (he : d = { c with reader := { c.reader with reader := d.reader.reader } }) (a a' : Bytes) (c' d' : TlsClient) (hx : (TlsClient.read m len).run c = (.ok a, c'))
    (hx' : (TlsClient.read m len).run d = (.ok a', d')) : a <+: a' := by
  have hcd : TlsClient.Later q c d := ⟨⟨h, by rw [he], by rw [he], by rw [he], by rw [he]⟩, by rw [he], by rw [he], by rw [he]⟩
  have e1 : len + d.reader.reader.bytes + 1 = len + c.reader.reader.bytes + 1 + countBytes q := by rw [Reader.bytes_eq, Reader.bytes_eq, h, countBytes_append]; omega
  replace hx' : (readLoop m (len + d.reader.reader.bytes + 1) len []).run d = (.ok a', d') := hx'
  rw [e1] at hx'
  exact readLoop_prefix m (countBytes q) _ len [] c d hcd a c' hx a' d' hx'

/-- C123: in a conversation with a server that never takes back what it has sent, the client never takes back anything either: what it has sent after one turn
is the beginning of what it has sent after the next. -/
theorem C123_conversation (m : Mode) (rng : Rng) (answer : Bytes → Reader) (h0 : ∀ w w', w <+: w' → (answer w).stream <+: (answer w').stream) (n : Nat) :
    sentWith m rng (talk m rng answer n) <+: sentWith m rng (talk m rng answer (n + 1)) := by
  suffices h : ∀ n, (talk m rng answer n).stream <+: (talk m rng answer (n + 1)).stream by
    obtain ⟨q, hq⟩ := h n
    exact C123_sent m _ _ {} rng q hq.symm
  intro n
  induction n with
  | zero => exact List.nil_prefix
  | succ n ih =>
    obtain ⟨q, hq⟩ := ih
    exact h0 _ _ (C123_sent m _ _ {} rng q hq.symm)

/-! ### The hypotheses can be met -/

/-- A server that sends back what it gets never takes anything back. -/
example : ∀ w w' : Bytes, w <+: w' → (byteByByte w).stream <+: (byteByByte w').stream := by
  rintro w _ ⟨b, rfl⟩
  rw [stream_byteByByte, stream_byteByByte, ofBytes_append]
  exact ⟨_, rfl⟩

/-- A complete stream of a conforming server, and the same with two bytes after it. -/
example (m : Mode) (random block : Bytes) (hr : random.length = 32) (hb : block.length = 32) (hlt : leNat block < P256.p) (V : ServerValues) (hV : V.Conforms) :
    ∃ (rd rd' : Reader) (c : TlsClient), rd'.stream = rd.stream ++ ofBytes [23, 3] ∧ TlsClient.new m rd {} ⟨random ++ block⟩ = (.ok (), c) := by
  have D : Draws (random ++ block) random block [] := ⟨⟨[], by simp, by simp⟩, hr, hb, hlt⟩
  obtain ⟨S, hS⟩ : ∃ S, S = V.session random (clientPoint block) := ⟨_, rfl⟩
  obtain ⟨c, h, -⟩ := C29_completes_partial m (byteByByte (serverWire S (chunks 16384 S.flight) (chunks 16384 (finishedBytes S.serverVerify)))) {} ⟨random ++ block⟩ rfl random block [] D V hV S hS
    (chunks 16384 S.flight) (chunks 16384 (finishedBytes S.serverVerify)) [] ⟨cuts_exists _ (by have := flight_length hV hS; omega),
      cuts_exists _ (by simp [finishedBytes, handshakeBytes, serverVerify_length D hV hS]), by rw [stream_byteByByte, List.append_nil]⟩
  exact ⟨_, byteByByte (serverWire S (chunks 16384 S.flight) (chunks 16384 (finishedBytes S.serverVerify)) ++ [23, 3]), c, by rw [stream_byteByByte, stream_byteByByte, ofBytes_append], h⟩

end Husk
