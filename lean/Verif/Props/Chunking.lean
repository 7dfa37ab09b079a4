import Verif.Props.SessionData
/-! C71: how the transport cuts the incoming bytes makes no difference to anything the application or the peer can see. -/

namespace Husk

open Item Spec TlsReader TlsClient

/-! ### Proofs -/

namespace TlsClient

/-- Clients that differ only in how the transport cuts its bytes. -/
def Same (c d : TlsClient) : Prop := TlsReader.Same c.reader d.reader ∧ c.writer = d.writer ∧ c.rng = d.rng ∧ c.buf = d.buf

theorem onReader_respects {x : St TlsReader α} (hx : Respects TlsReader.Same x) : Respects Same (onReader x) := by
  intro c d h
  obtain ⟨h1, h2⟩ := hx _ _ h.1
  exact ⟨h1, h2, h.2⟩

theorem onWriter_respects (x : St TlsWriter α) : Respects Same (onWriter x) := by
  intro c d h
  obtain ⟨a, b, e, f⟩ := h
  simp only [onWriter, St.zoom_run]
  rw [b]
  exact ⟨rfl, a, rfl, e, f⟩

theorem onRng_respects (x : St Rng α) : Respects Same (onRng x) := by
  intro c d h
  obtain ⟨a, b, e, f⟩ := h
  simp only [onRng, St.zoom_run]
  rw [e]
  exact ⟨rfl, a, b, rfl, f⟩

theorem setIv_respects (iv : Bytes) : Respects TlsReader.Same (TlsReader.setIv iv) := by
  intro s t h
  obtain ⟨a, b, c, d, e⟩ := h
  simp only [TlsReader.setIv, e]
  cases t.iv with
  | none => exact ⟨rfl, a, b, c, d, rfl⟩
  | some _ => exact ⟨rfl, a, b, c, d, e⟩

theorem setDecryptor_respects (x : Decryptor) : Respects TlsReader.Same (TlsReader.setDecryptor x) := by
  intro s t h
  obtain ⟨a, b, c, d, e⟩ := h
  simp only [TlsReader.setDecryptor, b]
  cases t.decryptor with
  | none => exact ⟨rfl, a, rfl, rfl, d, e⟩
  | some _ => exact ⟨rfl, a, b, c, d, e⟩

theorem sendHello_respects (m : Mode) : Respects Same (sendHello m) :=
  Respects.bind (onRng_respects _) fun _ => Respects.bind (Respects.lift _) fun _ => Respects.bind (onWriter_respects _) fun _ => Respects.pure _

theorem expectServerHello_respects (m : Mode) : Respects TlsReader.Same (expectServerHello m) :=
  Respects.bind (readHandshake_respects m) fun h => by cases h <;> first | exact Respects.pure _ | exact Respects.err _
theorem expectCertificate_respects (m : Mode) : Respects TlsReader.Same (expectCertificate m) :=
  Respects.bind (readHandshake_respects m) fun h => by cases h <;> first | exact Respects.pure _ | exact Respects.err _
theorem expectServerKeyExchange_respects (m : Mode) : Respects TlsReader.Same (expectServerKeyExchange m) :=
  Respects.bind (readHandshake_respects m) fun h => by cases h <;> first | exact Respects.pure _ | exact Respects.err _
theorem expectServerHelloDone_respects (m : Mode) : Respects TlsReader.Same (expectServerHelloDone m) :=
  Respects.bind (readHandshake_respects m) fun h => by cases h <;> first | exact Respects.pure _ | exact Respects.err _
theorem expectFinished_respects (m : Mode) : Respects TlsReader.Same (expectFinished m) :=
  Respects.bind (readHandshake_respects m) fun h => by cases h <;> first | exact Respects.pure _ | exact Respects.err _

theorem readFlight_respects (m : Mode) : Respects Same (readFlight m) :=
  Respects.bind (onReader_respects (expectServerHello_respects m)) fun _ => Respects.bind (Respects.lift _) fun _ =>
    Respects.bind (onReader_respects (expectCertificate_respects m)) fun _ => Respects.bind (onReader_respects (expectServerKeyExchange_respects m)) fun _ =>
    Respects.bind (onRng_respects _) fun _ => Respects.bind (onReader_respects (expectServerHelloDone_respects m)) fun _ => Respects.pure _

theorem installKeys_respects (m : Mode) (a b c : Bytes) : Respects Same (installKeys m a b c) :=
  Respects.bind (Respects.lift _) fun _ => Respects.bind (Respects.lift _) fun _ => Respects.bind (onWriter_respects _) fun _ =>
    Respects.bind (Respects.lift _) fun _ => Respects.bind (Respects.lift _) fun _ => Respects.bind (Respects.lift _) fun _ =>
    Respects.bind (onWriter_respects _) fun _ => Respects.bind (onReader_respects (setIv_respects _)) fun _ => Respects.pure _

theorem sendFinished_respects (m : Mode) (cr : Bytes) (h : Handshake) (f : ServerFlight) : Respects Same (sendFinished m cr h f) :=
  Respects.bind (Respects.lift _) fun _ => Respects.bind (onWriter_respects _) fun _ => Respects.bind (onWriter_respects _) fun _ =>
    Respects.bind (Respects.lift _) fun _ => Respects.bind (installKeys_respects m _ _ _) fun _ => Respects.bind (Respects.lift _) fun _ =>
    Respects.bind (Respects.lift _) fun _ => Respects.bind (Respects.lift _) fun _ => Respects.bind (onWriter_respects _) fun _ => Respects.pure _

theorem readFinished_respects (m : Mode) (a b c : Bytes) (h : Handshake) : Respects Same (readFinished m a b c h) :=
  Respects.bind (onReader_respects (readChangeCipherSpec_respects m)) fun _ => Respects.bind (onReader_respects (setDecryptor_respects _)) fun _ =>
    Respects.bind (onReader_respects (expectFinished_respects m)) fun _ => Respects.lift _

theorem handshake_respects (m : Mode) : Respects Same (handshake m) :=
  Respects.bind (sendHello_respects m) fun _ => Respects.bind (readFlight_respects m) fun _ => Respects.bind (sendFinished_respects m _ _ _) fun _ =>
    readFinished_respects m _ _ _ _

/-- Going on after an answer and a state that are related. -/
theorem Respects.cases {R : σ → σ → Prop} {x : St σ α} (hx : Respects R x) {s t : σ} (h : R s t) : ∃ r s' t', x.run s = (r, s') ∧ x.run t = (r, t') ∧ R s' t' := by
  obtain ⟨h1, h2⟩ := hx s t h
  exact ⟨(x.run s).1, (x.run s).2, (x.run t).2, rfl, by rw [h1], h2⟩

theorem sendTlsAlert_respects (m : Mode) (k : TlsErrorKind) : Respects Same (sendTlsAlert m k) := by
  intro c d h
  obtain ⟨r, c', d', h1, h2, h3⟩ := Respects.cases (onWriter_respects (TlsWriter.writeAlert m (Alert.fromTlsErr k))) h
  cases k <;> simp only [sendTlsAlert, h1, h2] <;> first | exact ⟨trivial, h⟩ | (cases r <;> exact ⟨rfl, h3⟩)

theorem writeAll_respects (m : Mode) (buf : Bytes) : Respects Same (writeAll m buf) := by
  intro c d h
  obtain ⟨r, c', d', h1, h2, h3⟩ := Respects.cases (onWriter_respects (TlsWriter.writeApplicationData m buf)) h
  simp only [writeAll, h1, h2]
  cases r with
  | err k => exact Respects.bind (sendTlsAlert_respects m k) (fun _ => Respects.err _) _ _ h3
  | ok _ => exact ⟨rfl, h3⟩
  | panic => exact ⟨rfl, h3⟩
  | diverge => exact ⟨rfl, h3⟩

theorem write_respects (m : Mode) (buf : Bytes) : Respects Same (TlsClient.write m buf) := Respects.bind (writeAll_respects m buf) fun _ => Respects.pure _

theorem refill_respects (m : Mode) : Respects Same (refill m) := by
  intro c d h
  have hb := h.2.2.2
  obtain ⟨r, c', d', h1, h2, h3⟩ := Respects.cases (onReader_respects (readApplicationData_respects m)) h
  simp only [refill, h1, h2, hb]
  split
  · cases r with
    | ok b => exact ⟨rfl, h3.1, h3.2.1, h3.2.2.1, by simp only [h3.2.2.2]⟩
    | err k => exact ⟨rfl, h3⟩
    | panic => exact ⟨rfl, h3⟩
    | diverge => exact ⟨rfl, h3⟩
  · exact ⟨rfl, h⟩

theorem readLoop_respects (m : Mode) (fuel remaining : Nat) (acc : Bytes) : Respects Same (readLoop m fuel remaining acc) := by
  induction fuel generalizing remaining acc with
  | zero =>
    rw [readLoop.eq_def]
    exact Respects.ite (Respects.pure _) (Respects.lift _)
  | succ fuel ih =>
    rw [readLoop.eq_def]
    refine Respects.ite (Respects.pure _) (Respects.bind (refill_respects m) fun b => ?_)
    cases b with
    | false => exact Respects.pure _
    | true =>
      refine Respects.get_bind (fun c => ?_) (fun c d h => by rw [h.2.2.2])
      refine Respects.bind ?_ fun _ => ih _ _
      intro c d h
      exact ⟨rfl, h.1, h.2.1, h.2.2.1, by show List.drop _ c.buf = List.drop _ d.buf; rw [h.2.2.2]⟩

theorem read_respects (m : Mode) (len : Nat) : Respects Same (TlsClient.read m len) :=
  Respects.get_bind (fun _ => readLoop_respects m _ _ _) fun c d h => by rw [Reader.bytes_eq, Reader.bytes_eq, h.1.1]

theorem new_same (m : Mode) {rd rd' : Reader} (h : rd.stream = rd'.stream) (wr : Writer) (rng : Rng) :
    (TlsClient.new m rd wr rng).1 = (TlsClient.new m rd' wr rng).1 ∧ Same (TlsClient.new m rd wr rng).2 (TlsClient.new m rd' wr rng).2 := by
  have hs : Same { reader := TlsReader.new rd, writer := TlsWriter.new wr, rng } { reader := TlsReader.new rd', writer := TlsWriter.new wr, rng } :=
    ⟨⟨h, rfl, rfl, rfl, rfl⟩, rfl, rfl, rfl⟩
  obtain ⟨r, c', d', h1, h2, h3⟩ := Respects.cases (handshake_respects m) hs
  simp only [TlsClient.new, h1, h2]
  cases r with
  | err k => exact Respects.bind (sendTlsAlert_respects m k) (fun _ => Respects.err _) _ _ h3
  | ok _ => exact ⟨rfl, h3⟩
  | panic => exact ⟨rfl, h3⟩
  | diverge => exact ⟨rfl, h3⟩

end TlsClient

theorem Call.run_same (m : Mode) (call : Call) {c d : TlsClient} (h : TlsClient.Same c d) : (call.run m c).1 = (call.run m d).1 ∧ TlsClient.Same (call.run m c).2 (call.run m d).2 := by
  cases call with
  | read len => obtain ⟨h1, h2⟩ := read_respects m len _ _ h; exact ⟨congrArg CallResult.read h1, h2⟩
  | write buf => obtain ⟨h1, h2⟩ := write_respects m buf _ _ h; exact ⟨congrArg CallResult.write h1, h2⟩
  | flush => exact ⟨rfl, h⟩
  | close => obtain ⟨h1, h2⟩ := onWriter_respects (TlsWriter.writeAlert m { level := .fatal, description := .close_notify }) _ _ h; exact ⟨congrArg CallResult.done h1, h2⟩

theorem runCalls_same (m : Mode) (calls : List Call) {c d : TlsClient} (h : TlsClient.Same c d) :
    (runCalls m calls c).1 = (runCalls m calls d).1 ∧ TlsClient.Same (runCalls m calls c).2 (runCalls m calls d).2 := by
  induction calls generalizing c d with
  | nil => exact ⟨rfl, h⟩
  | cons call calls ih =>
    obtain ⟨h1, h2⟩ := call.run_same m h
    obtain ⟨h3, h4⟩ := ih h2
    exact ⟨by rw [runCalls, runCalls, h1, h3], h4⟩

/-! ### C71 -/

/-- C71: two transports that deliver the same bytes, with the same failures between the same bytes, are indistinguishable: `new` returns the same and has sent the same
bytes, and after it every history of calls returns the same and sends the same bytes. This holds whether or not `new` succeeds, and for any write failures. -/
theorem C71_chunking (m : Mode) (rd rd' : Reader) (h : rd.stream = rd'.stream) (wr : Writer) (rng : Rng) :
    (TlsClient.new m rd wr rng).1 = (TlsClient.new m rd' wr rng).1 ∧ (TlsClient.new m rd wr rng).2.writer.writer.wire = (TlsClient.new m rd' wr rng).2.writer.writer.wire ∧
      ∀ calls, (runCalls m calls (TlsClient.new m rd wr rng).2).1 = (runCalls m calls (TlsClient.new m rd' wr rng).2).1 ∧
        (runCalls m calls (TlsClient.new m rd wr rng).2).2.writer.writer.wire = (runCalls m calls (TlsClient.new m rd' wr rng).2).2.writer.writer.wire := by
  obtain ⟨h1, h2⟩ := new_same m h wr rng
  refine ⟨h1, by rw [h2.2.1], fun calls => ?_⟩
  obtain ⟨h3, h4⟩ := runCalls_same m calls h2
  exact ⟨h3, by rw [h4.2.1]⟩

/-- Two such transports: all at once, and in two pieces. -/
example (x y : Bytes) (hx : x ≠ []) (hy : y ≠ []) : (⟨[.data (x ++ y)]⟩ : Reader).stream = (⟨[.data x, .data y]⟩ : Reader).stream := by
  rw [Reader.stream_data _ (by simp [hx]), Reader.stream_data _ hx, Reader.stream_data _ hy, ofBytes_append, List.append_assoc]

end Husk
