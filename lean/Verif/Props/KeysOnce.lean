import Verif.Model.Tls
/-! # C106: keys are installed once

`husk::tls` is a public module. Any history of calls on a `TlsWriter` or a `TlsReader`, whatever fails on the way (the caller may go on after an error and, with `catch_unwind`, after a
panic): the first `set_encryptor`, `set_decryptor`, `set_iv` takes effect, every later one panics and changes nothing; application data is neither sent nor taken in before. -/

namespace Husk

/-- The public calls on a `TlsWriter` (src/tls.rs:83-192). `transport`: what the caller may do through `get_mut`. -/
inductive WriterCall
  | setEncryptor (e : Encryptor)
  | setIv (iv : Bytes)
  | record (r : Record)
  | data (ty : ContentType) (d : Bytes)
  | handshake (h : Handshake)
  | alert (a : Alert)
  | changeCipherSpec
  | applicationData (d : Bytes)
  | transport (wr : Writer)

def WriterCall.act (m : Mode) : WriterCall → St TlsWriter Unit
  | .setEncryptor e => TlsWriter.setEncryptor e
  | .setIv iv => TlsWriter.setIv iv
  | .record r => TlsWriter.writeRecord m r
  | .data ty d => TlsWriter.writeData m ty d
  | .handshake h => TlsWriter.writeHandshake m h
  | .alert a => TlsWriter.writeAlert m a
  | .changeCipherSpec => TlsWriter.writeChangeCipherSpec m
  | .applicationData d => TlsWriter.writeApplicationData m d
  | .transport wr => ⟨fun s => (.ok (), { s with writer := wr })⟩

/-- The writer after a history of calls. -/
def afterWriter (m : Mode) : List WriterCall → TlsWriter → TlsWriter
  | [], w => w
  | call :: calls, w => afterWriter m calls ((call.act m).run w).2

/-- The first encryptor, the first IV given in a history. -/
def firstEncryptor (calls : List WriterCall) : Option Encryptor := calls.findSome? fun | .setEncryptor e => some e | _ => none
def firstWriterIv (calls : List WriterCall) : Option Bytes := calls.findSome? fun | .setIv iv => some iv | _ => none

/-- The public calls on a `TlsReader` (src/tls.rs:213-436), `get_mut` as for the writer; the private `read_record` is allowed too. -/
inductive ReaderCall
  | setDecryptor (d : Decryptor)
  | setIv (iv : Bytes)
  | record
  | message
  | applicationData
  | handshake
  | changeCipherSpec
  | transport (rd : Reader)

/-- The call, its result dropped: what matters here is the outcome and the state. -/
def ReaderCall.act (m : Mode) : ReaderCall → St TlsReader Unit
  | .setDecryptor d => TlsReader.setDecryptor d
  | .setIv iv => TlsReader.setIv iv
  | .record => do let _ ← TlsReader.readRecord m
  | .message => do let _ ← TlsReader.readMessage m
  | .applicationData => do let _ ← TlsReader.readApplicationData m
  | .handshake => do let _ ← TlsReader.readHandshake m
  | .changeCipherSpec => TlsReader.readChangeCipherSpec m
  | .transport rd => ⟨fun s => (.ok (), { s with reader := rd })⟩

def afterReader (m : Mode) : List ReaderCall → TlsReader → TlsReader
  | [], w => w
  | call :: calls, w => afterReader m calls ((call.act m).run w).2

def firstDecryptor (calls : List ReaderCall) : Option Decryptor := calls.findSome? fun | .setDecryptor d => some d | _ => none
def firstReaderIv (calls : List ReaderCall) : Option Bytes := calls.findSome? fun | .setIv iv => some iv | _ => none

/-! ### Calls that leave a field alone -/

/-- `f` has the same value after the call, whatever its outcome. -/
def Untouched (f : σ → β) (x : St σ α) : Prop := ∀ s, f (x.run s).2 = f s

namespace Untouched

variable {f : σ → δ}

theorem lift (r : Res α) : Untouched f (St.lift r) := fun _ => rfl
theorem pure (a : α) : Untouched f (Pure.pure a : St σ α) := fun _ => rfl
theorem get : Untouched f (St.get : St σ σ) := fun _ => rfl
theorem bind {x : St σ α} {g : α → St σ β} (h : Untouched f x) (hg : ∀ a, Untouched f (g a)) : Untouched f (x >>= g) := by
  intro s
  have hs := h s
  rw [St.bind_run]
  rcases hx : x.run s with ⟨r, s'⟩
  rw [hx] at hs
  cases r with
  | ok a => exact (hg a s').trans hs
  | err k => exact hs
  | panic => exact hs
  | diverge => exact hs
theorem ite {p : Prop} [Decidable p] {x y : St σ α} (hx : Untouched f x) (hy : Untouched f y) : Untouched f (if p then x else y) := by split <;> assumption

end Untouched

/-- What the keys of a writer are. -/
def TlsWriter.keysOf (w : TlsWriter) : Option Encryptor × Option Bytes := (w.encryptor, w.iv)
/-- What the keys of a reader are. -/
def TlsReader.keysOf (s : TlsReader) : Option Decryptor × Option Bytes := (s.decryptor, s.iv)

theorem TlsWriter.writeRecord_untouched (m : Mode) (r : Record) : Untouched TlsWriter.keysOf (TlsWriter.writeRecord m r) := by
  have hio : ∀ {α} (x : St Writer α), Untouched TlsWriter.keysOf (TlsWriter.io x) := fun x s => rfl
  refine Untouched.bind (fun s => ?_) fun e => Untouched.ite (Untouched.lift _) (Untouched.bind (hio _) fun _ => Untouched.bind (hio _) fun _ => Untouched.bind (hio _) fun _ =>
    Untouched.bind (hio _) fun _ => Untouched.bind (hio _) fun _ => fun s => ?_)
  · rcases s with ⟨w, e, n, iv, calls⟩
    cases e with
    | none => rfl
    | some e =>
      simp only [TlsWriter.protect]
      split <;> rfl
  · simp only [TlsWriter.bump]
    split <;> rfl

theorem TlsWriter.writeChunks_untouched (m : Mode) (ty : ContentType) (cs : List Bytes) : Untouched TlsWriter.keysOf (TlsWriter.writeChunks m ty cs) := by
  induction cs with
  | nil => exact Untouched.pure _
  | cons c cs ih => exact Untouched.bind (Untouched.lift _) fun r => Untouched.bind (TlsWriter.writeRecord_untouched m r) fun _ => ih

theorem TlsReader.readRecord_untouched (m : Mode) : Untouched TlsReader.keysOf (TlsReader.readRecord m) := by
  have hio : ∀ {α} (x : St Reader α), Untouched TlsReader.keysOf (TlsReader.io x) := fun x s => rfl
  refine Untouched.bind (hio _) fun ty => ?_
  cases ContentType.ofU8 ty with
  | none => exact Untouched.lift _
  | some ty =>
    refine Untouched.bind (hio _) fun _ => Untouched.bind (hio _) fun _ => Untouched.bind (hio _) fun _ => Untouched.ite (Untouched.lift _) (Untouched.bind (hio _) fun _ =>
      Untouched.bind Untouched.get fun _ => Untouched.bind (Untouched.lift _) fun _ => Untouched.bind (fun s => ?_) fun _ => Untouched.pure _)
    simp only [TlsReader.bump]
    split <;> rfl

theorem TlsReader.readMessage_untouched (m : Mode) : Untouched TlsReader.keysOf (TlsReader.readMessage m) := by
  have hbuf : ∀ {α} (x : St HandshakeBuffer α), Untouched TlsReader.keysOf (TlsReader.onBuffer x) := fun x s => rfl
  have hrec := TlsReader.readRecord_untouched m
  have hstep : Untouched TlsReader.keysOf (TlsReader.messageStep m) := by
    refine Untouched.bind hrec fun r => ?_
    cases r.contentType
    · exact Untouched.bind (Untouched.lift _) fun _ => Untouched.pure _
    · exact Untouched.bind (Untouched.lift _) fun _ => Untouched.pure _
    · refine Untouched.ite (Untouched.lift _) (Untouched.bind (hbuf _) fun _ => Untouched.bind (hbuf _) fun msg => ?_)
      cases msg <;> exact Untouched.pure _
    · exact Untouched.pure _
  have hloop : ∀ fuel, Untouched TlsReader.keysOf (TlsReader.messageLoop m fuel) := by
    intro fuel
    induction fuel with
    | zero => exact Untouched.lift _
    | succ fuel ih =>
      refine Untouched.bind hstep fun r => ?_
      cases r with
      | none => exact ih
      | some _ => exact Untouched.pure _
  refine Untouched.bind (hbuf _) fun msg => ?_
  cases msg with
  | none => exact Untouched.bind Untouched.get fun _ => hloop _
  | some _ => exact Untouched.pure _

/-! ### The property -/

/-- Installing: the first time it takes effect (and the numbering of the records starts at 0), later it panics and nothing changes. -/
theorem C106_set (w : TlsWriter) (s : TlsReader) (e : Encryptor) (d : Decryptor) (iv : Bytes) :
    ((TlsWriter.setEncryptor e).run w = if w.encryptor.isNone then (.ok (), { w with encryptor := some e, writeCount := 0 }) else (.panic, w)) ∧
      ((TlsWriter.setIv iv).run w = if w.iv.isNone then (.ok (), { w with iv := some iv }) else (.panic, w)) ∧
      ((TlsReader.setDecryptor d).run s = if s.decryptor.isNone then (.ok (), { s with decryptor := some d, readCount := 0 }) else (.panic, s)) ∧
      ((TlsReader.setIv iv).run s = if s.iv.isNone then (.ok (), { s with iv := some iv }) else (.panic, s)) := by
  refine ⟨?_, ?_, ?_, ?_⟩
  · rcases w with ⟨_, _ | _, _, _, _⟩ <;> rfl
  · rcases w with ⟨_, _, _, _ | _, _⟩ <;> rfl
  · rcases s with ⟨_, _ | _, _, _, _⟩ <;> rfl
  · rcases s with ⟨_, _, _, _, _ | _⟩ <;> rfl

theorem WriterCall.keys (m : Mode) (call : WriterCall) (w : TlsWriter) :
    ((call.act m).run w).2.keysOf = (w.encryptor.or (firstEncryptor [call]), w.iv.or (firstWriterIv [call])) := by
  have plain : ∀ x : St TlsWriter Unit, Untouched TlsWriter.keysOf x → (x.run w).2.keysOf = (w.encryptor.or none, w.iv.or none) := by
    intro x hx
    rw [hx w, Option.or_none, Option.or_none]
    rfl
  have hdata : ∀ ty d, Untouched TlsWriter.keysOf (TlsWriter.writeData m ty d) := fun ty d => TlsWriter.writeChunks_untouched m ty _
  cases call with
  | setEncryptor e => rcases w with ⟨_, _ | _, _, _ | _, _⟩ <;> rfl
  | setIv iv => rcases w with ⟨_, _ | _, _, _ | _, _⟩ <;> rfl
  | record r => exact plain _ (TlsWriter.writeRecord_untouched m r)
  | data ty d => exact plain _ (hdata ty d)
  | handshake h => exact plain _ (Untouched.bind (Untouched.lift _) fun d => hdata _ d)
  | alert a => exact plain _ (Untouched.bind (Untouched.lift _) fun d => hdata _ d)
  | changeCipherSpec => exact plain _ (hdata _ _)
  | applicationData d => exact plain _ (Untouched.bind Untouched.get fun _ => Untouched.ite (Untouched.lift _) (hdata _ d))
  | transport wr => exact plain _ fun _ => rfl

theorem ReaderCall.keys (m : Mode) (call : ReaderCall) (s : TlsReader) :
    ((call.act m).run s).2.keysOf = (s.decryptor.or (firstDecryptor [call]), s.iv.or (firstReaderIv [call])) := by
  have plain : ∀ x : St TlsReader Unit, Untouched TlsReader.keysOf x → (x.run s).2.keysOf = (s.decryptor.or none, s.iv.or none) := by
    intro x hx
    rw [hx s, Option.or_none, Option.or_none]
    rfl
  have hmsg := TlsReader.readMessage_untouched m
  cases call with
  | setDecryptor e => rcases s with ⟨_, _ | _, _, _, _ | _⟩ <;> rfl
  | setIv iv => rcases s with ⟨_, _ | _, _, _, _ | _⟩ <;> rfl
  | transport rd => exact plain _ fun _ => rfl
  | record => exact plain _ (Untouched.bind (TlsReader.readRecord_untouched m) fun _ => Untouched.pure _)
  | message => exact plain _ (Untouched.bind hmsg fun _ => Untouched.pure _)
  | applicationData =>
    exact plain _ (Untouched.bind (Untouched.bind Untouched.get fun _ => Untouched.ite (Untouched.lift _) (Untouched.bind hmsg fun _ => Untouched.lift _)) fun _ => Untouched.pure _)
  | handshake =>
    refine plain _ (Untouched.bind (Untouched.bind hmsg fun msg => ?_) fun _ => Untouched.pure _)
    cases msg <;> first | exact Untouched.pure _ | exact Untouched.lift _
  | changeCipherSpec =>
    refine plain _ (Untouched.bind hmsg fun msg => ?_)
    cases msg <;> first | exact Untouched.pure _ | exact Untouched.lift _

/-- C106, the writer: whatever is called and whatever fails, the keys are the first that were given. -/
theorem C106_writer_keys (m : Mode) (calls : List WriterCall) (w : TlsWriter) :
    (afterWriter m calls w).encryptor = w.encryptor.or (firstEncryptor calls) ∧ (afterWriter m calls w).iv = w.iv.or (firstWriterIv calls) := by
  induction calls generalizing w with
  | nil => exact ⟨(Option.or_none).symm, (Option.or_none).symm⟩
  | cons call calls ih =>
    have hk := call.keys m w
    have h1 : ((call.act m).run w).2.encryptor = w.encryptor.or (firstEncryptor [call]) := congrArg Prod.fst hk
    have h2 : ((call.act m).run w).2.iv = w.iv.or (firstWriterIv [call]) := congrArg Prod.snd hk
    obtain ⟨i1, i2⟩ := ih ((call.act m).run w).2
    refine ⟨i1.trans ?_, i2.trans ?_⟩
    · rw [h1, Option.or_assoc]
      cases call <;> simp [firstEncryptor]
    · rw [h2, Option.or_assoc]
      cases call <;> simp [firstWriterIv]

/-- C106, the reader. -/
theorem C106_reader_keys (m : Mode) (calls : List ReaderCall) (s : TlsReader) :
    (afterReader m calls s).decryptor = s.decryptor.or (firstDecryptor calls) ∧ (afterReader m calls s).iv = s.iv.or (firstReaderIv calls) := by
  induction calls generalizing s with
  | nil => exact ⟨(Option.or_none).symm, (Option.or_none).symm⟩
  | cons call calls ih =>
    have hk := call.keys m s
    have h1 : ((call.act m).run s).2.decryptor = s.decryptor.or (firstDecryptor [call]) := congrArg Prod.fst hk
    have h2 : ((call.act m).run s).2.iv = s.iv.or (firstReaderIv [call]) := congrArg Prod.snd hk
    obtain ⟨i1, i2⟩ := ih ((call.act m).run s).2
    refine ⟨i1.trans ?_, i2.trans ?_⟩
    · rw [h1, Option.or_assoc]
      cases call <;> simp [firstDecryptor]
    · rw [h2, Option.or_assoc]
      cases call <;> simp [firstReaderIv]

/-- C106: the `n+1`-st call of a history on a new writer, if it installs something: it returns exactly when nothing was installed before. -/
theorem C106_writer_second_panics (m : Mode) (calls : List WriterCall) (wr : Writer) (e : Encryptor) (iv : Bytes) :
    ((TlsWriter.setEncryptor e).run (afterWriter m calls (TlsWriter.new wr))).1 = (if (firstEncryptor calls).isNone then .ok () else .panic) ∧
      ((TlsWriter.setIv iv).run (afterWriter m calls (TlsWriter.new wr))).1 = (if (firstWriterIv calls).isNone then .ok () else .panic) := by
  obtain ⟨h1, h2⟩ := C106_writer_keys m calls (TlsWriter.new wr)
  obtain ⟨g1, g2, _⟩ := C106_set (afterWriter m calls (TlsWriter.new wr)) (TlsReader.new ⟨[]⟩) e (Decryptor.chacha m []) iv
  have h1 : _ = firstEncryptor calls := h1
  have h2 : _ = firstWriterIv calls := h2
  rw [g1, g2, h1, h2]
  constructor <;> split <;> rfl

theorem C106_reader_second_panics (m : Mode) (calls : List ReaderCall) (rd : Reader) (d : Decryptor) (iv : Bytes) :
    ((TlsReader.setDecryptor d).run (afterReader m calls (TlsReader.new rd))).1 = (if (firstDecryptor calls).isNone then .ok () else .panic) ∧
      ((TlsReader.setIv iv).run (afterReader m calls (TlsReader.new rd))).1 = (if (firstReaderIv calls).isNone then .ok () else .panic) := by
  obtain ⟨h1, h2⟩ := C106_reader_keys m calls (TlsReader.new rd)
  obtain ⟨_, _, g1, g2⟩ := C106_set (TlsWriter.new {}) (afterReader m calls (TlsReader.new rd)) (Encryptor.chacha m []) d iv
  have h1 : _ = firstDecryptor calls := h1
  have h2 : _ = firstReaderIv calls := h2
  rw [g1, g2, h1, h2]
  constructor <;> split <;> rfl

/-- C106: before keys are installed `write_application_data` and `read_application_data` panic; nothing is sent, nothing is read. -/
theorem C106_no_clear_data (m : Mode) (calls : List WriterCall) (calls' : List ReaderCall) (wr : Writer) (rd : Reader) (d : Bytes) (hw : firstEncryptor calls = none)
    (hr : firstDecryptor calls' = none) :
    (TlsWriter.writeApplicationData m d).run (afterWriter m calls (TlsWriter.new wr)) = (.panic, afterWriter m calls (TlsWriter.new wr)) ∧
      (TlsReader.readApplicationData m).run (afterReader m calls' (TlsReader.new rd)) = (.panic, afterReader m calls' (TlsReader.new rd)) := by
  have h1 : (afterWriter m calls (TlsWriter.new wr)).encryptor = none := by rw [(C106_writer_keys m calls _).1, hw]; rfl
  have h2 : (afterReader m calls' (TlsReader.new rd)).decryptor = none := by rw [(C106_reader_keys m calls' _).1, hr]; rfl
  constructor
  · rw [TlsWriter.writeApplicationData, St.bind_of_ok (St.get_run _), h1]; rfl
  · rw [TlsReader.readApplicationData, St.bind_of_ok (St.get_run _), h2]; rfl

/-- A history: a record in clear, a key, a failed write, a second key. -/
example (m : Mode) (e e' : Encryptor) (h : Handshake) :
    ((TlsWriter.setEncryptor e').run (afterWriter m [.handshake h, .setEncryptor e, .alert ⟨.fatal, .close_notify⟩] (TlsWriter.new { faults := [none, some 3] }))).1 = .panic :=
  (C106_writer_second_panics m [.handshake h, .setEncryptor e, .alert ⟨.fatal, .close_notify⟩] _ e' []).1

/-- And one in which the first call succeeds. -/
example (m : Mode) (e : Encryptor) (h : Handshake) : ((TlsWriter.setEncryptor e).run (afterWriter m [.handshake h, .setIv [1], .setIv [2]] (TlsWriter.new {}))).1 = .ok () :=
  (C106_writer_second_panics m [.handshake h, .setIv [1], .setIv [2]] _ e []).1

end Husk
