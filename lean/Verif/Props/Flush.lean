import Verif.Props.Secrecy
/-! C100: transports that buffer. -/

namespace Husk

open Spec TlsClient

/-! ### Specification -/

/-- A transport that keeps small writes until it is flushed, as `std::io::BufWriter` is documented (capacity 8192 by default). -/
structure BufWriter where
  capacity : Nat
  buffered : Bytes := []
  delivered : Bytes := []

/-- `BufWriter::write_all`: if the bytes do not fit, what is buffered goes out; bytes that fill a whole buffer go out at once. -/
def BufWriter.writeAll (s : BufWriter) (b : Bytes) : BufWriter :=
  if s.buffered.length + b.length ≤ s.capacity ∧ b.length < s.capacity then { s with buffered := s.buffered ++ b }
  else if b.length < s.capacity then { s with delivered := s.delivered ++ s.buffered, buffered := b }
  else { s with delivered := s.delivered ++ s.buffered ++ b, buffered := [] }

/-- `BufWriter::flush`. -/
def BufWriter.flush (s : BufWriter) : BufWriter := { s with delivered := s.delivered ++ s.buffered, buffered := [] }

/-- A sequence of writes without a flush. -/
def BufWriter.writes (s : BufWriter) (ws : List Bytes) : BufWriter := ws.foldl BufWriter.writeAll s

/-! ### Proofs -/

theorem BufWriter.writes_small (s : BufWriter) (ws : List Bytes) (h : s.buffered.length + ws.flatten.length < s.capacity) : (s.writes ws).delivered = s.delivered := by
  induction ws generalizing s with
  | nil => rfl
  | cons b ws ih =>
    rw [List.flatten_cons, List.length_append] at h
    have e : s.writeAll b = { s with buffered := s.buffered ++ b } := by rw [BufWriter.writeAll, if_pos ⟨by omega, by omega⟩]
    show (writes (s.writeAll b) ws).delivered = _
    rw [e, ih _ (by simp only [List.length_append]; omega)]

theorem BufWriter.writes_all (s : BufWriter) (ws : List Bytes) : (s.writes ws).delivered ++ (s.writes ws).buffered = s.delivered ++ s.buffered ++ ws.flatten := by
  induction ws generalizing s with
  | nil => simp [writes]
  | cons b ws ih =>
    show (writes (s.writeAll b) ws).delivered ++ (writes (s.writeAll b) ws).buffered = _
    rw [ih]
    unfold writeAll
    split
    · simp
    · split <;> simp

/-! ### C100 -/

/-- C100: when the client begins to wait for the server, nothing of its ClientHello has left a buffer of more than 74 bytes, whatever the draws and however the record
is handed to the transport: with such a transport and a server that waits for the ClientHello, the handshake cannot go on. -/
theorem C100_hello_kept (m : Mode) (rd : Reader) (rng : Rng) (c : TlsClient) (x : Bytes × Handshake) (h : (sendHello m).run (fresh rd ⟨[], []⟩ rng) = (.ok x, c))
    (capacity : Nat) (hc : 74 < capacity) (ws : List Bytes) (hw : ws.flatten = c.writer.writer.wire) :
    c.writer.writer.wire.length = 74 ∧ (BufWriter.writes ⟨capacity, [], []⟩ ws).delivered = [] := by
  rcases sendHello_cases m (fresh rd ⟨[], []⟩ rng) rfl rfl with ⟨h1, -⟩ | ⟨cr, rest, -, hl, ⟨w', h1, h2⟩ | ⟨w', n, h1, -⟩⟩
  · rw [h] at h1; cases h1
  · rw [h] at h1
    cases h1
    have e : w'.writer.wire.length = 74 := by
      rw [h2.wire]
      show ([] ++ recordBytes 22 3 3 (clientHelloBytes cr)).length = 74
      simp [TlsReader.recordBytes_length, clientHelloBytes, handshakeBytes, hl]
    exact ⟨e, BufWriter.writes_small _ _ (by rw [hw]; show 0 + w'.writer.wire.length < capacity; omega)⟩
  · rw [h] at h1; cases h1

/-- C100 is false of the code: in every session and for every history of calls, also one that ends with `flush`, a buffering transport keeps everything as long as it
fits its buffer: `flush` of the client does not reach the transport. `ws` are the writes of the client on the transport, cut in any way. -/
theorem C100_flush_keeps (m : Mode) (rd : Reader) (wr : Writer) (rng : Rng) (hfa : wr.faults = []) (c : TlsClient) (h : TlsClient.new m rd wr rng = (.ok (), c))
    (calls : List Call) (hn : (calls.flatMap Call.records).length < 2 ^ 64 - 1) (capacity : Nat) (hc : 192 + (calls.map Call.cost).sum < capacity) (ws : List Bytes)
    (hw : (runCalls m (calls ++ [.flush]) c).2.writer.writer.wire = wr.wire ++ ws.flatten) : (BufWriter.writes ⟨capacity, [], []⟩ ws).delivered = [] := by
  have e := C79_wire_length m rd wr rng hfa c h (calls ++ [.flush]) (by rw [List.flatMap_append, List.length_append]; simpa [Call.records] using hn)
  rw [hw, List.length_append, List.map_append, List.sum_append] at e
  refine BufWriter.writes_small _ _ ?_
  have : ([Call.flush].map Call.cost).sum = 0 := rfl
  show 0 + ws.flatten.length < capacity
  omega

/-- C100 is false of the code, said with a session: data is written and flushed, and nothing is delivered through a buffer of the default size. -/
theorem C100_not_flushed (m : Mode) : ∃ rd wr rng c, TlsClient.new m rd wr rng = (.ok (), c) ∧
    (runCalls m [.write [1, 2, 3], .flush] c).1 = [.write (.ok 3), .done (.ok ())] ∧
    ∀ ws : List Bytes, (runCalls m [.write [1, 2, 3], .flush] c).2.writer.writer.wire = wr.wire ++ ws.flatten → (BufWriter.writes ⟨8192, [], []⟩ ws).delivered = [] := by
  obtain ⟨rd, wr, rng, c, h1, h2, -⟩ := session_exists m
  refine ⟨rd, wr, rng, c, h1, ?_, fun ws hw => ?_⟩
  · obtain ⟨_, _, _, _, _, _, _, _, -, -, hr⟩ := C67_wire m rd wr rng h2 c h1 [.write [1, 2, 3], .flush] (by decide +kernel)
    generalize (runCalls m [.write [1, 2, 3], .flush] c).1 = rs at hr
    cases hr with
    | cons a hr =>
      cases hr with
      | cons b hr =>
        cases hr
        rw [a _ rfl, b _ rfl]
        rfl
  · exact C100_flush_keeps m rd wr rng h2 c h1 [.write [1, 2, 3]] (by decide +kernel) 8192 (by decide) ws hw

/-- What holds: a flush of the transport itself (through `client.writer()`) delivers exactly what was written, in order; without it what is delivered is an initial part. -/
theorem C100_inner_flush_partial (m : Mode) (rd : Reader) (wr : Writer) (rng : Rng) (calls : List Call) (capacity : Nat) (ws : List Bytes)
    (hw : (runCalls m calls (TlsClient.new m rd wr rng).2).2.writer.writer.wire = wr.wire ++ ws.flatten) :
    wr.wire ++ (BufWriter.writes ⟨capacity, [], []⟩ ws).flush.delivered = (runCalls m calls (TlsClient.new m rd wr rng).2).2.writer.writer.wire ∧
      (BufWriter.writes ⟨capacity, [], []⟩ ws).delivered <+: ws.flatten := by
  have e := BufWriter.writes_all ⟨capacity, [], []⟩ ws
  simp only [List.nil_append] at e
  exact ⟨by rw [hw, ← e]; rfl, ⟨_, e⟩⟩

end Husk
