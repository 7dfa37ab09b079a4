import Verif.Props.HandshakeGaps
import Verif.Props.HandshakeOrder
/-! C66, C67: any history of calls on a connection, whatever the server and the network do. -/

namespace Husk

open Item Spec TlsReader TlsClient

/-! ### Histories -/

/-- One call on a connection. -/
inductive Call where
  | read (len : Nat)
  | write (buf : Bytes)
  | flush
  | close
deriving DecidableEq

/-- What a call returned. -/
inductive CallResult where
  | read (r : Res Bytes)
  | write (r : Res Nat)
  | done (r : Res Unit)

def Call.run (m : Mode) (c : TlsClient) : Call → CallResult × TlsClient
  | .read len => let r := (TlsClient.read m len).run c; (.read r.1, r.2)
  | .write buf => let r := (TlsClient.write m buf).run c; (.write r.1, r.2)
  | .flush => let r := TlsClient.flush.run c; (.done r.1, r.2)
  | .close => let r := (TlsClient.close m).run c; (.done r.1, r.2)

/-- A history of calls; it goes on after errors and panics. -/
def runCalls (m : Mode) : List Call → TlsClient → List CallResult × TlsClient
  | [], c => ([], c)
  | call :: calls, c =>
    let r := call.run m c
    let rs := runCalls m calls r.2
    (r.1 :: rs.1, rs.2)

/-- The bytes handed out by the reads. -/
def received (rs : List CallResult) : Bytes := rs.flatMap fun
  | .read (.ok b) => b
  | _ => []

/-! ### Specification -/

/-- Records in a stream, in this order and possibly with anything before, between and after them, that open under the key with consecutive sequence numbers. The
list holds the type, the two version bytes and the plaintext. -/
inductive Opened (key iv : Bytes) : Nat → List Sym → List (UInt8 × UInt8 × UInt8 × Bytes) → Prop
  | nil {k l} : Opened key iv k l []
  | cons {k l l' ty a b p ct rs} : ofBytes (recordBytes ty a b ct) ++ l' <:+ l → ct.length ≤ 18432 →
      Spec.Aead.openMsg key (recordNonce iv (k % 2 ^ 64)) (recordAad (k % 2 ^ 64) ty a b p.length) ct = some p →
      Opened key iv (k + 1) l' rs → Opened key iv k l ((ty, a, b, p) :: rs)

/-- The application data among them. -/
def appData (rs : List (UInt8 × UInt8 × UInt8 × Bytes)) : Bytes := rs.flatMap fun r => if r.1 = 23 then r.2.2.2 else []

/-- The records a call sends: data in pieces of at most 2^14 bytes; `close` an alert (fatal, close_notify). -/
def Call.records : Call → List (UInt8 × Bytes)
  | .write buf => (chunks 16384 buf).map fun f => (23, f)
  | .close => [(21, [2, 0])]
  | _ => []

/-- What a call other than `read` returns when all goes well. -/
def Call.good : Call → Option CallResult
  | .write buf => some (.write (.ok buf.length))
  | .read _ => none
  | _ => some (.done (.ok ()))

/-- Protected records with consecutive numbers. -/
def protectedItems (key iv : Bytes) : Nat → List (UInt8 × Bytes) → Bytes
  | _, [] => []
  | k, r :: rs => protectedRecord key iv k r.1 r.2 ++ protectedItems key iv (k + 1) rs

/-! ### Proofs -/

theorem Opened.wider {key iv : Bytes} {k : Nat} {l l' : List Sym} {rs} (h : Opened key iv k l rs) (hl : l <:+ l') : Opened key iv k l' rs := by
  cases h with
  | nil => exact .nil
  | cons h1 h2 h3 h4 => exact .cons (h1.trans hl) h2 h3 h4

theorem accepts_opened {s s' : TlsReader} {recs : List Record} {m : Mode} {key iv : Bytes} (hk : key.length = 32) (hl : iv.length = 12) (h : TlsReader.Accepts s recs s')
    (hd : s.decryptor = some (.chacha m key)) (hi : s.iv = some iv) (k : Nat) (hc : s.readCount.toNat = k % 2 ^ 64) :
    ∃ rs, Opened key iv k s.reader.stream rs ∧ appData rs = appOf recs ∧ rs.length = recs.length := by
  induction h generalizing k with
  | nil => exact ⟨[], .nil, rfl, rfl⟩
  | @cons s s1 s' ty a b f rec recs hf hs hu h1 h2 h3 _ ih =>
    obtain ⟨rs, e1, e2, e3⟩ := ih (h1.trans hd) (h3.trans hi) (k + 1) (by
      rw [h2, UInt64.toNat_add, hc]; show (k % 2 ^ 64 + 1) % 2 ^ 64 = _; omega)
    obtain ⟨p, rfl, ho⟩ := unprotect_chacha hd hk hi hl hf hu
    rw [hc] at ho
    refine ⟨_, .cons hs hf ho e1, ?_, by rw [List.length_cons, List.length_cons, e3]⟩
    have : appOf (⟨ty, a, b, p⟩ :: recs) = (if ty = .ApplicationDataTy then p else []) ++ appOf recs := by
      by_cases h : ty = .ApplicationDataTy <;> simp [appOf, h]
    rw [this, ← e2]
    show (if ty.toU8 = 23 then p else []) ++ appData rs = _
    congr 1
    cases ty <;> rfl

/-- A call that only uses and changes the writing side. -/
def WriterOnly (x : St TlsClient α) : Prop := ∃ f : TlsWriter → Res α × TlsWriter, ∀ c, x.run c = ((f c.writer).1, { c with writer := (f c.writer).2 })

/-- A call that only uses and changes the reading side. -/
def ReaderOnly (x : St TlsClient α) : Prop :=
  ∃ f : TlsReader × Bytes → Res α × TlsReader × Bytes, ∀ c, x.run c = ((f (c.reader, c.buf)).1, { c with reader := (f (c.reader, c.buf)).2.1, buf := (f (c.reader, c.buf)).2.2 })

theorem WriterOnly.onWriter (x : St TlsWriter α) : WriterOnly (onWriter x) := ⟨x.run, fun c => by simp only [TlsClient.onWriter, St.zoom_run]⟩
theorem WriterOnly.lift (r : Res α) : WriterOnly (St.lift r) := ⟨fun w => (r, w), fun _ => rfl⟩
theorem WriterOnly.bind {x : St TlsClient α} {f : α → St TlsClient β} (hx : WriterOnly x) (hf : ∀ a, WriterOnly (f a)) : WriterOnly (x >>= f) := by
  obtain ⟨g, hg⟩ := hx
  choose h hh using hf
  refine ⟨fun w => match g w with
    | (.ok a, w) => h a w
    | (.err k, w) => (.err k, w)
    | (.panic, w) => (.panic, w)
    | (.diverge, w) => (.diverge, w), fun c => ?_⟩
  rw [St.bind_run, hg]
  dsimp only
  rcases g c.writer with ⟨x, w⟩
  cases x with
  | ok a => exact hh a _
  | _ => rfl

theorem ReaderOnly.bind {x : St TlsClient α} {f : α → St TlsClient β} (hx : ReaderOnly x) (hf : ∀ a, ReaderOnly (f a)) : ReaderOnly (x >>= f) := by
  obtain ⟨g, hg⟩ := hx
  choose h hh using hf
  refine ⟨fun w => match g w with
    | (.ok a, w) => h a w
    | (.err k, w) => (.err k, w)
    | (.panic, w) => (.panic, w)
    | (.diverge, w) => (.diverge, w), fun c => ?_⟩
  rw [St.bind_run, hg]
  dsimp only
  rcases g (c.reader, c.buf) with ⟨x, w⟩
  cases x with
  | ok a => exact hh a _
  | _ => rfl

theorem sendTlsAlert_only (m : Mode) (k : TlsErrorKind) : WriterOnly (sendTlsAlert m k) := by
  by_cases hk : k = .IoFailure
  · subst hk; exact WriterOnly.lift (.ok TlsErrorKind.IoFailure)
  · refine ⟨fun w => match (TlsWriter.writeAlert m (Alert.fromTlsErr k)).run w with
      | (.ok (), w) => (.ok k, w)
      | (.err k', w) => (.ok k', w)
      | (.panic, w) => (.panic, w)
      | (.diverge, w) => (.diverge, w), fun c => ?_⟩
    rcases hx : (TlsWriter.writeAlert m (Alert.fromTlsErr k)).run c.writer with ⟨x, w⟩
    have h2 : (onWriter (TlsWriter.writeAlert m (Alert.fromTlsErr k))).run c = (x, { c with writer := w }) := by
      simp only [TlsClient.onWriter, St.zoom_run, hx]
    unfold sendTlsAlert
    dsimp only
    cases k <;> first | exact absurd rfl hk | (simp only [h2, hx]; cases x <;> rfl)

theorem write_only (m : Mode) (buf : Bytes) : WriterOnly (TlsClient.write m buf) := by
  refine .bind ?_ fun _ => .lift (.ok _)
  have h : ∀ k, WriterOnly (sendTlsAlert m k >>= fun k' => (St.err k' : St TlsClient Unit)) := fun k => .bind (sendTlsAlert_only m k) fun k' => .lift (.err k')
  choose g hg using h
  refine ⟨fun w => match (TlsWriter.writeApplicationData m buf).run w with
    | (.ok (), w) => (.ok (), w)
    | (.err k, w) => g k w
    | (.panic, w) => (.panic, w)
    | (.diverge, w) => (.diverge, w), fun c => ?_⟩
  rw [writeAll_run]
  dsimp only
  rcases (TlsWriter.writeApplicationData m buf).run c.writer with ⟨x, w⟩
  cases x with
  | err k => exact hg k _
  | _ => rfl

theorem refill_only (m : Mode) : ReaderOnly (refill m) := by
  refine ⟨fun p => if p.2.isEmpty then
      match (readApplicationData m).run p.1 with
      | (.ok data, s) => (.ok true, s, p.2 ++ data)
      | (.err _, s) => (.ok false, s, p.2)
      | (.panic, s) => (.panic, s, p.2)
      | (.diverge, s) => (.diverge, s, p.2)
    else (.ok true, p), fun c => ?_⟩
  unfold refill
  dsimp only
  by_cases h : c.buf.isEmpty
  · simp only [if_pos h, onReader, St.zoom_run]
    rcases (readApplicationData m).run c.reader with ⟨x, s⟩
    cases x <;> rfl
  · simp only [if_neg h]

theorem readLoop_only (m : Mode) (fuel : Nat) : ∀ (rem : Nat) (acc : Bytes), ReaderOnly (readLoop m fuel rem acc) := by
  induction fuel with
  | zero =>
    intro rem acc
    rw [readLoop]
    split
    · exact ⟨fun p => (.ok acc, p), fun _ => rfl⟩
    · exact ⟨fun p => (.diverge, p), fun _ => rfl⟩
  | succ fuel ih =>
    intro rem acc
    rw [readLoop]
    split
    · exact ⟨fun p => (.ok acc, p), fun _ => rfl⟩
    · dsimp only
      refine .bind (refill_only m) fun b => ?_
      cases b with
      | false => exact ⟨fun p => (.ok acc, p), fun _ => rfl⟩
      | true =>
        choose g hg using ih
        exact ⟨fun p => g (rem - min rem p.2.length) (acc ++ p.2.take (min rem p.2.length)) (p.1, p.2.drop (min rem p.2.length)), fun c => hg _ _ _⟩

theorem read_only (m : Mode) (len : Nat) : ReaderOnly (TlsClient.read m len) := by
  have h : ∀ fuel, ReaderOnly (readLoop m fuel len []) := fun fuel => readLoop_only m fuel len []
  choose g hg using h
  exact ⟨fun p => g (len + p.1.reader.bytes + 1) p, fun c => hg _ c⟩

/-! ### C67 -/

/-- A `read` call. -/
def Call.isRead : Call → Bool
  | .read _ => true
  | _ => false

def CallResult.isRead : CallResult → Bool
  | .read _ => true
  | _ => false

theorem Call.run_read (m : Mode) {call : Call} (h : call.isRead) : ∃ f : TlsReader × Bytes → CallResult × TlsReader × Bytes, (∀ p, (f p).1.isRead) ∧
    ∀ c, call.run m c = ((f (c.reader, c.buf)).1, { c with reader := (f (c.reader, c.buf)).2.1, buf := (f (c.reader, c.buf)).2.2 }) := by
  cases call with
  | read len =>
    obtain ⟨f, hf⟩ := read_only m len
    exact ⟨fun p => (.read (f p).1, (f p).2), fun _ => rfl, fun c => by simp only [Call.run, hf]⟩
  | _ => cases h

theorem Call.run_write (m : Mode) {call : Call} (h : call.isRead = false) : ∃ f : TlsWriter → CallResult × TlsWriter, (∀ w, (f w).1.isRead = false) ∧
    ∀ c, call.run m c = ((f c.writer).1, { c with writer := (f c.writer).2 }) := by
  cases call with
  | read => cases h
  | write buf =>
    obtain ⟨f, hf⟩ := write_only m buf
    exact ⟨fun p => (.write (f p).1, (f p).2), fun _ => rfl, fun c => by simp only [Call.run, hf]⟩
  | flush => exact ⟨fun p => (.done (.ok ()), p), fun _ => rfl, fun c => rfl⟩
  | close =>
    obtain ⟨f, hf⟩ := WriterOnly.onWriter (TlsWriter.writeAlert m { level := .fatal, description := .close_notify })
    exact ⟨fun p => (.done (f p).1, (f p).2), fun _ => rfl, fun c => by simp only [Call.run, TlsClient.close, hf]⟩

/-- C67: reading and writing are independent. In any history of calls, on any connection, the reads return what they return without the writes, the writes return
what they return without the reads, and each side ends up in the same state. -/
theorem C67_independent (m : Mode) (calls : List Call) (c : TlsClient) :
    (runCalls m calls c).1.filter CallResult.isRead = (runCalls m (calls.filter Call.isRead) c).1 ∧
    (runCalls m calls c).1.filter (fun r => !r.isRead) = (runCalls m (calls.filter fun k => !k.isRead) c).1 ∧
    (runCalls m calls c).2 = { (runCalls m (calls.filter Call.isRead) c).2 with writer := (runCalls m (calls.filter fun k => !k.isRead) c).2.writer } := by
  have gen : ∀ (calls : List Call) (c1 c2 : TlsClient), c1.rng = c2.rng →
      (runCalls m calls { c1 with writer := c2.writer }).1.filter CallResult.isRead = (runCalls m (calls.filter Call.isRead) c1).1 ∧
      (runCalls m calls { c1 with writer := c2.writer }).1.filter (fun r => !r.isRead) = (runCalls m (calls.filter fun k => !k.isRead) c2).1 ∧
      (runCalls m calls { c1 with writer := c2.writer }).2 = { (runCalls m (calls.filter Call.isRead) c1).2 with writer := (runCalls m (calls.filter fun k => !k.isRead) c2).2.writer } := by
    intro calls
    induction calls with
    | nil => intro c1 c2 _; exact ⟨rfl, rfl, rfl⟩
    | cons call calls ih =>
      intro c1 c2 hr
      cases hc : call.isRead with
      | true =>
        obtain ⟨f, h1, h2⟩ := Call.run_read m hc
        obtain ⟨i1, i2, i3⟩ := ih { c1 with reader := (f (c1.reader, c1.buf)).2.1, buf := (f (c1.reader, c1.buf)).2.2 } c2 hr
        simp only [List.filter_cons, hc, if_true, Bool.not_true, Bool.false_eq_true, if_false, runCalls, h2, h1, i1, i2, i3]
        exact ⟨trivial, trivial, trivial⟩
      | false =>
        obtain ⟨f, h1, h2⟩ := Call.run_write m hc
        obtain ⟨i1, i2, i3⟩ := ih c1 { c2 with writer := (f c2.writer).2 } hr
        simp only [List.filter_cons, hc, Bool.not_false, if_true, Bool.false_eq_true, if_false, runCalls, h2, h1, i1, i2, i3]
        exact ⟨trivial, trivial, trivial⟩
  exact gen calls c c rfl

theorem protectedItems_append (key iv : Bytes) (k : Nat) (a b : List (UInt8 × Bytes)) :
    protectedItems key iv k (a ++ b) = protectedItems key iv k a ++ protectedItems key iv (k + a.length) b := by
  induction a generalizing k with
  | nil => rfl
  | cons x a ih => simp only [List.cons_append, protectedItems, ih, List.append_assoc, List.length_cons]; congr 3; omega

theorem protectedItems_map (key iv : Bytes) (ty : UInt8) (k : Nat) (fs : List Bytes) :
    protectedItems key iv k (fs.map fun f => (ty, f)) = protectedRecords key iv ty k fs := by
  induction fs generalizing k with
  | nil => rfl
  | cons f fs ih => simp only [List.map_cons, protectedItems, protectedRecords, ih]

/-- The writing side under the client's keys, with the next number `k`. -/
structure Writes (m : Mode) (key iv : Bytes) (k : Nat) (w : TlsWriter) : Prop where
  encryptor : w.encryptor = some (.chacha m key)
  iv : w.iv = some iv
  count : w.writeCount.toNat = k
  faults : w.writer.faults = []

theorem writeData_protected {m : Mode} {key iv : Bytes} {k : Nat} {w : TlsWriter} (hk : key.length = 32) (hi : iv.length = 12) (hw : Writes m key iv k w) (ty : ContentType) (data : Bytes)
    (hn : k + (chunks 16384 data).length < 2 ^ 64) :
    ∃ w', (TlsWriter.writeData m ty data).run w = (.ok (), w') ∧ Writes m key iv (k + (chunks 16384 data).length) w' ∧
      w'.writer.wire = w.writer.wire ++ protectedItems key iv k ((chunks 16384 data).map fun f => (ty.toU8, f)) := by
  have hcw : CrateWriter w := ⟨m, _, hk, hw.encryptor⟩
  obtain ⟨w', h⟩ := TlsWriter.writeChunks_ok (m := m) (ty := ty) (TlsWriter.chunk_bound data) hcw.sealsShort hw.faults (by rw [hw.count]; exact hn)
  obtain ⟨sent, hsent, hmap⟩ := TlsWriter.writeData_inv h
  have hl : sent.length = (chunks 16384 data).length := by
    rw [← List.length_map (f := Prod.fst), hmap, TlsWriter.recordsOf, List.length_map]; rfl
  obtain ⟨e1, e2, e3, e4⟩ := hsent.same
  refine ⟨w', h, ⟨e1.trans hw.encryptor, e2.trans hw.iv, ?_, e4 hw.faults⟩, ?_⟩
  · rw [e3, UInt64.toNat_add, hw.count, hl, UInt64.toNat_ofNat']; omega
  · have hp := sent_protected (m := m) hk hi hsent hw.encryptor hw.iv (TlsWriter.chunk_bound data) hmap (by rw [hw.count]; exact hn)
    rw [hw.count] at hp
    rw [hsent.wire, protectedItems_map]
    exact congrArg (w.writer.wire ++ ·) hp

theorem Call.run_sends {m : Mode} {key iv : Bytes} {k : Nat} {c : TlsClient} (hk : key.length = 32) (hi : iv.length = 12) (hw : Writes m key iv k c.writer) (call : Call)
    (hn : k + call.records.length < 2 ^ 64) :
    Writes m key iv (k + call.records.length) (call.run m c).2.writer ∧
      (call.run m c).2.writer.writer.wire = c.writer.writer.wire ++ protectedItems key iv k call.records ∧
      ∀ r, call.good = some r → (call.run m c).1 = r := by
  cases call with
  | read len =>
    obtain ⟨f, hf⟩ := read_only m len
    simp only [Call.run, hf, Call.records, protectedItems, List.append_nil, List.length_nil, Nat.add_zero, Call.good]
    exact ⟨hw, trivial, by simp⟩
  | flush => exact ⟨hw, (List.append_nil _).symm, fun r h => Option.some.inj h⟩
  | write buf =>
    rw [Call.records, List.length_map] at hn ⊢
    obtain ⟨w', h1, h2, h3⟩ := writeData_protected hk hi hw .ApplicationDataTy buf hn
    have h4 : (TlsClient.write m buf).run c = (.ok buf.length, { c with writer := w' }) := by
      rw [TlsClient.write, St.bind_run, writeAll_run, writeApplicationData_run _ _ _ (by rw [hw.encryptor]; rfl), h1]
      rfl
    simp only [Call.run, h4]
    exact ⟨h2, h3, fun r h => Option.some.inj h⟩
  | close =>
    obtain ⟨w', h1, h2, h3⟩ := writeData_protected hk hi hw .AlertTy [2, 0] hn
    have h4 : (TlsClient.close m).run c = (.ok (), { c with writer := w' }) := by
      have : (TlsWriter.writeAlert m { level := .fatal, description := .close_notify }).run c.writer = (.ok (), w') := by
        rw [writeAlert_run]; exact h1
      simp only [TlsClient.close, onWriter, St.zoom_run, this]
    simp only [Call.run, h4]
    exact ⟨h2, h3, fun r h => Option.some.inj h⟩

theorem runCalls_sends {m : Mode} {key iv : Bytes} (hk : key.length = 32) (hi : iv.length = 12) (calls : List Call) {k : Nat} {c : TlsClient} (hw : Writes m key iv k c.writer)
    (hn : k + (calls.flatMap Call.records).length < 2 ^ 64) :
    Writes m key iv (k + (calls.flatMap Call.records).length) (runCalls m calls c).2.writer ∧
    (runCalls m calls c).2.writer.writer.wire = c.writer.writer.wire ++ protectedItems key iv k (calls.flatMap Call.records) ∧
    List.Forall₂ (fun (call : Call) r => ∀ g, call.good = some g → r = g) calls (runCalls m calls c).1 := by
  induction calls generalizing k c with
  | nil => exact ⟨hw, (List.append_nil _).symm, .nil⟩
  | cons call calls ih =>
    simp only [List.flatMap_cons, List.length_append] at hn ⊢
    obtain ⟨h1, h2, h3⟩ := Call.run_sends hk hi hw call (by omega)
    obtain ⟨i1, i2, i3⟩ := ih h1 (by omega)
    refine ⟨by rw [← Nat.add_assoc]; exact i1, ?_, .cons h3 i3⟩
    show (runCalls m calls (call.run m c).2).2.writer.writer.wire = _
    rw [i2, h2, protectedItems_append, List.append_assoc]

/-- C67: after every successful handshake, whatever the server was and whatever it sends later, over a transport without write errors: every history of calls puts
on the wire, after the handshake, exactly the protected records of its writes and closes, in order, under the client's keys, numbered from 1; all these calls
succeed. (In particular `close` sends one alert and stops nothing.) -/
theorem C67_wire (m : Mode) (rd : Reader) (wr : Writer) (rng : Rng) (hfa : wr.faults = []) (c : TlsClient) (h : TlsClient.new m rd wr rng = (.ok (), c)) (calls : List Call)
    (hn : (calls.flatMap Call.records).length < 2 ^ 64 - 1) :
    ∃ S clear prot a b protWire pre post, Completed m rd wr rng c S clear prot a b protWire pre post ∧
      (runCalls m calls c).2.writer.writer.wire = wr.wire ++ (clientFlight S.random S.point S.keys S.clientVerify).flatten ++
        protectedItems S.keys.clientKey S.keys.clientIv 1 (calls.flatMap Call.records) ∧
      List.Forall₂ (fun (call : Call) r => ∀ g, call.good = some g → r = g) calls (runCalls m calls c).1 := by
  obtain ⟨S, clear, prot, a, b, protWire, pre, post, hC⟩ := C27_flight_partial m rd wr rng c h
  obtain ⟨k1, k2, k3, k4⟩ := hC.ready.lengths
  have hw : Writes m S.keys.clientKey S.keys.clientIv 1 c.writer := ⟨hC.ready.encryptor, hC.ready.writerIv, by rw [hC.ready.writeCount]; rfl, hC.faults hfa⟩
  obtain ⟨-, h2, h3⟩ := runCalls_sends k1 k3 calls hw (by omega)
  exact ⟨S, clear, prot, a, b, protWire, pre, post, hC, by rw [h2, hC.sent], h3⟩

/-! ### C66 -/

/-- The call did not panic. -/
def CallResult.Returned : CallResult → Prop
  | .read r => r.Returns
  | .write r => r.Returns
  | .done r => r.Returns

theorem runCalls_reads (m : Mode) (calls : List Call) (c : TlsClient) (hret : ∀ r ∈ (runCalls m calls c).1, r.Returned) :
    ∃ n, (runCalls m calls c).2.reader = (readApp m n c.reader).2 ∧
      c.buf ++ (readApp m n c.reader).1.flatMap delivered = received (runCalls m calls c).1 ++ (runCalls m calls c).2.buf := by
  induction calls generalizing c with
  | nil => exact ⟨0, rfl, by simp [runCalls, received, readApp]⟩
  | cons call calls ih =>
    obtain ⟨k, g1, g2⟩ := ih (call.run m c).2 (fun r hr => hret r (List.mem_cons_of_mem _ hr))
    have e1 : (runCalls m (call :: calls) c).2 = (runCalls m calls (call.run m c).2).2 := rfl
    have e2 : received (runCalls m (call :: calls) c).1 = received [(call.run m c).1] ++ received (runCalls m calls (call.run m c).2).1 := by
      simp [received, runCalls]
    cases hc : call.isRead with
    | false =>
      obtain ⟨f, h1, h2⟩ := Call.run_write m hc
      refine ⟨k, ?_, ?_⟩
      · rw [e1, g1, h2]
      · rw [e1, e2, List.append_assoc, ← g2, h2]
        have : received [(f c.writer).1] = [] := by
          have := h1 c.writer
          cases hf : (f c.writer).1 with
          | read r => rw [hf] at this; cases this
          | _ => rfl
        simp only [this, List.nil_append]
    | true =>
      cases call with
      | read len =>
        have hr0 := hret _ (List.mem_cons_self ..)
        rcases hr : (TlsClient.read m len).run c with ⟨x, c1⟩
        obtain ⟨n, h1, _, _, _, h4⟩ := C22_read m len c c1 x hr
        have hrun : (Call.read len).run m c = (.read x, c1) := by simp only [Call.run, hr]
        rw [hrun] at g1 g2 e1 e2
        change ((Call.read len).run m c).1.Returned at hr0
        rw [hrun] at hr0
        rcases h4 with ⟨out, rfl, h5, h6, _⟩ | ⟨rfl, _⟩ | ⟨rfl, _⟩
        · refine ⟨n + k, ?_, ?_⟩
          · rw [e1, g1, readApp_add, h1]
          · rw [e1, e2, List.append_assoc, ← g2, readApp_add, h1]
            simp only [List.flatMap_append]
            rw [← List.append_assoc, h6, List.append_assoc]
            simp [received]
        · exact absurd hr0 id
        · exact absurd hr0 id
      | _ => cases hc

/-- C66: after every successful handshake, whatever the server and the network do: the bytes that any history of calls hands out are, in order and without gaps,
application data of records in the stream behind the handshake that open under the server's key of this session with consecutive numbers, continuing those of the
handshake. What has been opened and not handed out yet is in the client's buffer. (A history up to the first panic; the call that panics hands out nothing.) -/
theorem C66_received (m : Mode) (rd : Reader) (wr : Writer) (rng : Rng) (c : TlsClient) (h : TlsClient.new m rd wr rng = (.ok (), c)) (calls : List Call)
    (hret : ∀ r ∈ (runCalls m calls c).1, r.Returned) :
    ∃ S clear prot a b protWire pre post, Completed m rd wr rng c S clear prot a b protWire pre post ∧
      ∃ rs, Opened S.keys.serverKey S.keys.serverIv prot.length c.reader.reader.stream rs ∧
        received (runCalls m calls c).1 ++ (runCalls m calls c).2.buf = appData rs := by
  obtain ⟨S, clear, prot, a, b, protWire, pre, post, hC⟩ := C27_flight_partial m rd wr rng c h
  obtain ⟨k1, k2, k3, k4⟩ := hC.ready.lengths
  obtain ⟨n, h1, h2⟩ := runCalls_reads m calls c hret
  obtain ⟨recs, a1, a2⟩ := readApp_accepts m n c.reader
  obtain ⟨rs, o1, o2, -⟩ := accepts_opened k2 k4 a1 hC.ready.decryptor hC.ready.readerIv prot.length hC.ready.readCount
  refine ⟨S, clear, prot, a, b, protWire, pre, post, hC, rs, o1, ?_⟩
  rw [← h2, hC.ready.buf, o2, a2]; rfl

/-! ### A server that follows the protocol -/

/-- The buffer lengths of the reads. -/
def Call.lens (calls : List Call) : List Nat := calls.filterMap fun
  | .read len => some len
  | _ => none

theorem Call.filter_reads (calls : List Call) : calls.filter Call.isRead = (Call.lens calls).map Call.read := by
  induction calls with
  | nil => rfl
  | cons call calls ih => cases call <;> simp [Call.lens, Call.isRead, List.filter_cons] <;> exact ih

theorem runCalls_readMany (m : Mode) (lens : List Nat) (c c' : TlsClient) (outs : List Bytes) (h : readMany m lens c = (outs.map .ok, c')) :
    runCalls m (lens.map .read) c = (outs.map fun o => .read (.ok o), c') := by
  induction lens generalizing c outs with
  | nil =>
    simp only [readMany, Prod.mk.injEq] at h
    have : outs = [] := by cases outs <;> simp_all
    subst this
    rw [← h.2]; rfl
  | cons len lens ih =>
    rcases hr : (TlsClient.read m len).run c with ⟨x, c1⟩
    rw [readMany, hr] at h
    cases outs with
    | nil => cases x <;> simp at h
    | cons o outs =>
      cases x with
      | ok b =>
        simp only [List.map_cons, Prod.mk.injEq, List.cons.injEq, Res.ok.injEq] at h
        obtain ⟨⟨rfl, h1⟩, h2⟩ := h
        have := ih c1 outs (Prod.ext h1 h2)
        simp only [List.map_cons, runCalls, Call.run, hr, this]
      | _ => simp at h

theorem received_reads (rs : List CallResult) : received rs = received (rs.filter CallResult.isRead) := by
  induction rs with
  | nil => rfl
  | cons r rs ih => cases r <;> simp_all [received, CallResult.isRead, List.filter_cons]

/-- C66, when the server follows the protocol and sends data after the handshake: the reads of any history of calls, among any writes and closes, return exactly the
data, in order, as long as they do not ask for more than was sent. -/
theorem C66_delivered (m : Mode) (rd : Reader) (wr : Writer) (rng : Rng) (hfa : wr.faults = []) (random block rest : Bytes) (D : Draws rng.bytes random block rest)
    (V : ServerValues) (hV : V.Conforms) (S : Session) (hS : S = V.session random (clientPoint block)) (fs1 fs2 : List Bytes)
    (fs : List Bytes) (hfs : ∀ f ∈ fs, f.length ≤ 2 ^ 14) (hn : fs.length < 2 ^ 63) (l : List Sym)
    (hrd : Reply S fs1 fs2 (ofBytes (protectedRecords S.keys.serverKey S.keys.serverIv 23 fs2.length fs) ++ l) rd) (calls : List Call)
    (hlens : (Call.lens calls).sum ≤ fs.flatten.length) :
    ∃ c, TlsClient.new m rd wr rng = (.ok (), c) ∧ ∃ outs : List Bytes, (runCalls m calls c).1.filter CallResult.isRead = outs.map (fun o => .read (.ok o)) ∧
      outs.map List.length = Call.lens calls ∧ received (runCalls m calls c).1 = fs.flatten.take (Call.lens calls).sum := by
  obtain ⟨c, h, outs, c', h1, h2, h3⟩ := C29_server_data_partial m rd wr rng hfa random block rest D V hV S hS fs1 fs2 fs hfs hn l hrd (Call.lens calls) hlens
  have h4 := runCalls_readMany m _ c c' outs h1
  have h5 := (C67_independent m calls c).1
  rw [Call.filter_reads, h4] at h5
  refine ⟨c, h, outs, h5, h2, ?_⟩
  rw [received_reads, h5, ← h3]
  simp [received, List.flatMap_map]

/-- Such a server exists, and a history with reads, writes and closes. -/
theorem session_exists (m : Mode) : ∃ rd wr rng c, TlsClient.new m rd wr rng = (.ok (), c) ∧ wr.faults = [] ∧
    received (runCalls m [.write [1, 2, 3], .read 2, .close, .flush, .read 1] c).1 = [7, 8, 9] := by
  obtain ⟨V, hV⟩ : ∃ V : ServerValues, V.Conforms := ⟨{ random := List.replicate 32 7, secret := 1 },
    ⟨by simp, by simp, by simp, by simp, by decide, by rw [one_nsmul]; exact Spec.P256.G_ne_zero, by simp⟩⟩
  have D : Draws (List.replicate 32 0 ++ (5 :: List.replicate 31 0)) (List.replicate 32 0) (5 :: List.replicate 31 0) [] :=
    ⟨⟨[], by simp, by simp⟩, by simp, by simp, by decide⟩
  obtain ⟨S, hS⟩ : ∃ S, S = V.session (List.replicate 32 0) (clientPoint (5 :: List.replicate 31 0)) := ⟨_, rfl⟩
  have hc2 := cuts_exists (finishedBytes S.serverVerify) (by simp [finishedBytes, handshakeBytes, serverVerify_length D hV hS])
  obtain ⟨c, h1, -, -, -, h2⟩ := C66_delivered m
    (byteByByte (serverWire S (chunks 16384 S.flight) (chunks 16384 (finishedBytes S.serverVerify)) ++
      protectedRecords S.keys.serverKey S.keys.serverIv 23 (chunks 16384 (finishedBytes S.serverVerify)).length [[7, 8], [9]])) {} ⟨_⟩ rfl _ _ _ D V hV S hS _ _ [[7, 8], [9]]
    (by simp) (by simp) [] ⟨cuts_exists _ (by have := flight_length hV hS; omega), hc2, by rw [stream_byteByByte, ofBytes_append, List.append_nil]⟩
    [.write [1, 2, 3], .read 2, .close, .flush, .read 1] (by decide)
  exact ⟨_, _, _, c, h1, rfl, h2⟩

end Husk
