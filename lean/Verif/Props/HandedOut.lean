import Verif.Model.Tcp
import Verif.Props.PublicApi
/-! # C115: handing out the transport

`TlsClient::reader()` and `writer()` (and `get_mut` of the fields) give the caller the transport itself, and the caller can do anything with it between the calls: read from it, write to it, put
another in its place. What remains of C113 is that the client's own part is untouched by it. -/

namespace Husk

open TlsClient TlsWriter TlsReader

/-- A call of the API, or use of a transport that was handed out. -/
inductive AnyCall where
  | api (call : ApiCall)
  | useReader (f : Reader → Reader)
  | useWriter (f : Writer → Writer)

/-- The methods of C113; the transports only through `useReader` and `useWriter`. -/
def AnyCall.Public : AnyCall → Prop
  | .api call => call.InBand
  | _ => True

/-- The result of a call (`none` for the use of a transport), and the client after it. -/
def AnyCall.run (m : Mode) (c : TlsClient) : AnyCall → Option ApiResult × TlsClient
  | .api call => let r := call.run m c; (some r.1, r.2)
  | .useReader f => (none, ((TlsClient.useReader f).run c).2)
  | .useWriter f => (none, ((TlsClient.useWriter f).run c).2)

/-- The client after a history of calls. -/
def afterAny (m : Mode) : List AnyCall → TlsClient → TlsClient
  | [], c => c
  | call :: calls, c => afterAny m calls (call.run m c).2

/-- The results of a history of calls. -/
def anyResults (m : Mode) : List AnyCall → TlsClient → List (Option ApiResult)
  | [], _ => []
  | call :: calls, c => (call.run m c).1 :: anyResults m calls (call.run m c).2

/-- What a call did to the bytes written: the pieces were appended, or, when the caller had the transport, what the caller did. -/
def AnyCall.Wrote (key iv : Bytes) (before : Writer) (ps : List Piece) (after : Writer) (r : Option ApiResult) : AnyCall → Prop
  | .useWriter f => ps = [] ∧ after = f before
  | .useReader _ => ps = [] ∧ after = before
  | .api _ => after.wire = before.wire ++ ps.flatMap (Piece.bytes key iv) ∧ ∀ x, r = some x → x.Succeeded → ∀ p ∈ ps, p.cut = none

/-- What a call took: records that it found in what the transport delivers, opened with the numbers from `k` on; or, when the caller had the transport, what the caller did. -/
def AnyCall.Took (key iv : Bytes) (k : Nat) (before : Reader) (log : Log) (after : Reader) (r : Option ApiResult) : AnyCall → Prop
  | .useReader f => log = [] ∧ after = f before
  | .useWriter _ => log = [] ∧ after = before
  | .api _ => Opened key iv k before.stream log ∧ after.stream <:+ before.stream ∧ ∃ x, r = some x ∧ x.From log

def bytesRead (r : Option ApiResult) : Bytes := r.elim [] ApiResult.readBytes

def dataRead (r : Option ApiResult) (log : Log) : Bytes := r.elim [] fun r => r.readData log

def Returned (r : Option ApiResult) : Prop := ∀ x, r = some x → x.ReadReturned

/-! ### Sending -/

theorem afterAny_sealed {m : Mode} {key iv : Bytes} (hk : key.length = 32) (hl : iv.length = 12) (calls : List AnyCall) (hb : ∀ call ∈ calls, call.Public) {c : TlsClient}
    (hw : KeyedBy m key iv c.writer) : ∃ pss : List (List Piece), pss.length = calls.length ∧ Numbered c.writer.writeCount.toNat pss.flatten (afterAny m calls c).writer.writeCount.toNat ∧
      ∀ (i : Nat) (call : AnyCall) (ps : List Piece) (r : Option ApiResult), calls[i]? = some call → pss[i]? = some ps → (anyResults m calls c)[i]? = some r → call.Wrote key iv (afterAny m (calls.take i) c).writer.writer ps (afterAny m (calls.take (i + 1)) c).writer.writer r := by
  induction calls generalizing c with
  | nil => exact ⟨[], rfl, .nil, fun i call ps r h => by simp at h⟩
  | cons call calls ih =>
    have one : KeyedBy m key iv (call.run m c).2.writer ∧ ∃ ps, Numbered c.writer.writeCount.toNat ps (call.run m c).2.writer.writeCount.toNat ∧
        call.Wrote key iv c.writer.writer ps (call.run m c).2.writer.writer (call.run m c).1 := by
      cases call with
      | api call =>
        obtain ⟨h1, ps, h2, h3, h4⟩ := call.run_sealed hk hl (hb _ (List.mem_cons_self ..)) hw
        exact ⟨h1, ps, h2, h3, fun x e hx => h4 (by cases e; exact hx)⟩
      | useReader f => exact ⟨hw, [], .nil, rfl, rfl⟩
      | useWriter f => exact ⟨hw, [], .nil, rfl, rfl⟩
    obtain ⟨h1, ps, h2, h3⟩ := one
    obtain ⟨pss, g1, g2, g3⟩ := ih (fun k hk => hb k (List.mem_cons_of_mem _ hk)) h1
    refine ⟨ps :: pss, by simp [g1], by rw [List.flatten_cons]; exact h2.append g2, fun i call' ps' r e e' e'' => ?_⟩
    cases i with
    | zero =>
      simp only [anyResults, List.getElem?_cons_zero, Option.some.injEq] at e e' e''
      subst e e' e''
      exact h3
    | succ i =>
      rw [anyResults, List.getElem?_cons_succ] at e''
      rw [List.getElem?_cons_succ] at e e'
      exact g3 i call' ps' r e e' e''

/-- C115, sending: after every successful handshake, whatever the caller does with the transport between the calls, each call of the API appends to what is in the transport at that time pieces of
protected records under the client's keys of this session and nothing else (whole ones if it succeeds); over all calls they are numbered from 1 on, a whole record using up its number. -/
theorem C115_sent (m : Mode) (rd : Reader) (wr : Writer) (rng : Rng) (c : TlsClient) (h : TlsClient.new m rd wr rng = (.ok (), c)) (calls : List AnyCall) (hb : ∀ call ∈ calls, call.Public) :
    ∃ S clear prot a b protWire pre post, Completed m rd wr rng c S clear prot a b protWire pre post ∧
      ∃ (pss : List (List Piece)) (last : Nat), pss.length = calls.length ∧ Numbered 1 pss.flatten last ∧
        ∀ (i : Nat) (call : AnyCall) (ps : List Piece) (r : Option ApiResult), calls[i]? = some call → pss[i]? = some ps → (anyResults m calls c)[i]? = some r →
          call.Wrote S.keys.clientKey S.keys.clientIv (afterAny m (calls.take i) c).writer.writer ps (afterAny m (calls.take (i + 1)) c).writer.writer r := by
  obtain ⟨S, clear, prot, a, b, protWire, pre, post, hC⟩ := C27_flight_partial m rd wr rng c h
  obtain ⟨k1, k2, k3, k4⟩ := hC.ready.lengths
  have hw : KeyedBy m S.keys.clientKey S.keys.clientIv c.writer := by rw [KeyedBy, TlsWriter.keysOf, hC.ready.encryptor, hC.ready.writerIv]
  obtain ⟨pss, h1, h2, h3⟩ := afterAny_sealed k1 k3 calls hb hw
  have hone : c.writer.writeCount.toNat = 1 := by rw [hC.ready.writeCount]; rfl
  rw [hone] at h2
  exact ⟨S, clear, prot, a, b, protWire, pre, post, hC, pss, _, h1, h2, h3⟩

/-! ### Receiving -/

theorem accepts_count {s s' : TlsReader} {recs : List Record} (h : TlsReader.Accepts s recs s') {k : Nat} (hc : s.readCount.toNat = k % 2 ^ 64) :
    s'.readCount.toNat = (k + recs.length) % 2 ^ 64 ∧ s'.reader.stream <:+ s.reader.stream := by
  induction h generalizing k with
  | nil h1 _ h2 _ => exact ⟨by rw [h2, hc]; rfl, h1⟩
  | @cons s s1 s' ty a b f rec recs hf hs hu h1 h2 h3 _ ih =>
    obtain ⟨e1, e2⟩ := ih (k := k + 1) (by rw [h2, UInt64.toNat_add, hc]; show (k % 2 ^ 64 + 1) % 2 ^ 64 = _; omega)
    refine ⟨by rw [e1, List.length_cons]; congr 1; omega, e2.trans ((List.suffix_append _ _).trans hs)⟩

theorem afterAny_accepts {m : Mode} {key iv : Bytes} (hk : key.length = 32) (hl : iv.length = 12) (calls : List AnyCall) (hb : ∀ call ∈ calls, call.Public) {c : TlsClient} {k : Nat}
    (hd : c.reader.decryptor = some (.chacha m key)) (hi : c.reader.iv = some iv) (hc : c.reader.readCount.toNat = k % 2 ^ 64) (hret : ∀ r ∈ anyResults m calls c, Returned r) :
    ∃ logs : List Log, logs.length = calls.length ∧
      (∀ (i : Nat) (call : AnyCall) (log : Log) (r : Option ApiResult), calls[i]? = some call → logs[i]? = some log → (anyResults m calls c)[i]? = some r →
        call.Took key iv (k + (logs.take i).flatten.length) (afterAny m (calls.take i) c).reader.reader log (afterAny m (calls.take (i + 1)) c).reader.reader r) ∧
      c.buf ++ (List.zipWith dataRead (anyResults m calls c) logs).flatten = (anyResults m calls c).flatMap bytesRead ++ (afterAny m calls c).buf := by
  induction calls generalizing c k with
  | nil => exact ⟨[], rfl, fun i call log r h => by simp at h, by simp [anyResults, afterAny]⟩
  | cons call calls ih =>
    have one : ∃ log : Log, ((call.run m c).2.reader.decryptor = c.reader.decryptor ∧ (call.run m c).2.reader.iv = c.reader.iv ∧
        (call.run m c).2.reader.readCount.toNat = (k + log.length) % 2 ^ 64) ∧ call.Took key iv k c.reader.reader log (call.run m c).2.reader.reader (call.run m c).1 ∧
        c.buf ++ dataRead (call.run m c).1 log = bytesRead (call.run m c).1 ++ (call.run m c).2.buf := by
      cases call with
      | api call =>
        obtain ⟨recs, h1, h2, h3⟩ := call.run_accepts (m := m) (hb _ (List.mem_cons_self ..)) (by rw [hd]; rfl) (by rw [hi]; rfl) (hret _ (List.mem_cons_self ..) _ rfl)
        obtain ⟨e1, e2⟩ := accepts_keys h1
        obtain ⟨e3, e4⟩ := accepts_count h1 hc
        refine ⟨logOf recs, ⟨e1, e2, by rw [show (logOf recs).length = recs.length from List.length_map _]; exact e3⟩, ⟨accepts_logged hk hl h1 hd hi k hc, e4, _, rfl, h2⟩, h3⟩
      | useReader f => exact ⟨[], ⟨rfl, rfl, hc⟩, ⟨rfl, rfl⟩, by simp [AnyCall.run, dataRead, bytesRead, TlsClient.useReader]⟩
      | useWriter f => exact ⟨[], ⟨rfl, rfl, hc⟩, ⟨rfl, rfl⟩, by simp [AnyCall.run, dataRead, bytesRead, TlsClient.useWriter]⟩
    obtain ⟨log, ⟨h1, h2, h3⟩, h4, h5⟩ := one
    obtain ⟨logs, g1, g2, g3⟩ := ih (c := (call.run m c).2) (k := k + log.length) (fun k hk => hb k (List.mem_cons_of_mem _ hk)) (h1.trans hd) (h2.trans hi) h3
      (fun r hr => hret r (List.mem_cons_of_mem _ hr))
    refine ⟨log :: logs, by simp [g1], fun i call' log' r e e' e'' => ?_, ?_⟩
    · cases i with
      | zero =>
        simp only [anyResults, List.getElem?_cons_zero, Option.some.injEq] at e e' e''
        subst e e' e''
        exact h4
      | succ i =>
        rw [anyResults, List.getElem?_cons_succ] at e''
        rw [List.getElem?_cons_succ] at e e'
        have := g2 i call' log' r e e' e''
        rw [List.take_succ_cons, List.flatten_cons, List.length_append, ← Nat.add_assoc]
        exact this
    · show c.buf ++ (dataRead (call.run m c).1 log ++ (List.zipWith dataRead (anyResults m calls (call.run m c).2) logs).flatten) =
        (bytesRead (call.run m c).1 ++ (anyResults m calls (call.run m c).2).flatMap bytesRead) ++ (afterAny m calls (call.run m c).2).buf
      rw [← List.append_assoc, h5, List.append_assoc, g3, List.append_assoc]

/-- C115, receiving: after every successful handshake, whatever the caller does with the transport between the calls, each call takes from what the transport then delivers records that open under
the server's key of this session; their numbers continue from call to call, so that no number is accepted twice and none is left out. What is handed out comes from these records as in C113. -/
theorem C115_received (m : Mode) (rd : Reader) (wr : Writer) (rng : Rng) (c : TlsClient) (h : TlsClient.new m rd wr rng = (.ok (), c)) (calls : List AnyCall) (hb : ∀ call ∈ calls, call.Public)
    (hret : ∀ r ∈ anyResults m calls c, Returned r) :
    ∃ S clear prot a b protWire pre post, Completed m rd wr rng c S clear prot a b protWire pre post ∧ ∃ logs : List Log, logs.length = calls.length ∧
      (∀ (i : Nat) (call : AnyCall) (log : Log) (r : Option ApiResult), calls[i]? = some call → logs[i]? = some log → (anyResults m calls c)[i]? = some r →
        call.Took S.keys.serverKey S.keys.serverIv (prot.length + (logs.take i).flatten.length) (afterAny m (calls.take i) c).reader.reader log
          (afterAny m (calls.take (i + 1)) c).reader.reader r) ∧
      (List.zipWith dataRead (anyResults m calls c) logs).flatten = (anyResults m calls c).flatMap bytesRead ++ (afterAny m calls c).buf := by
  obtain ⟨S, clear, prot, a, b, protWire, pre, post, hC⟩ := C27_flight_partial m rd wr rng c h
  obtain ⟨k1, k2, k3, k4⟩ := hC.ready.lengths
  obtain ⟨logs, h1, h2, h3⟩ := afterAny_accepts k2 k4 calls hb hC.ready.decryptor hC.ready.readerIv hC.ready.readCount hret
  rw [hC.ready.buf, List.nil_append] at h3
  exact ⟨S, clear, prot, a, b, protWire, pre, post, hC, logs, h1, h2, h3⟩

/-- C115, `from_tcp`: over a TCP connection the client is `new` over its two directions; if the stream cannot be cloned, `from_tcp` returns IoFailure and nothing is sent or read. -/
theorem C115_from_tcp (m : Mode) (stream : TcpStream) (rng : Rng) :
    (stream.clones = true → fromTcp m stream rng = TlsClient.new m stream.incoming stream.outgoing rng) ∧
    (stream.clones = false → (fromTcp m stream rng).1 = .err .IoFailure ∧ (fromTcp m stream rng).2.writer.writer = stream.outgoing ∧ (fromTcp m stream rng).2.reader.reader = stream.incoming) := by
  constructor
  · intro h; rw [fromTcp, if_pos h]
  · intro h
    rw [fromTcp, if_neg (by rw [h]; decide)]
    exact ⟨rfl, rfl, rfl⟩

/-- A caller who writes a line in clear, has the client read from another stream and goes on. -/
example (line : Bytes) (other : Reader) : ∀ call ∈ [AnyCall.api (.client (.write [1])), .useWriter (fun w => { w with wire := w.wire ++ line }), .useReader (fun _ => other), .api (.client (.read 5)),
    .api (.client .close)], call.Public := by simp [AnyCall.Public, ApiCall.InBand]

end Husk
