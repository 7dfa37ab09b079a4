import Verif.Props.HandshakeOrder
import Verif.Proofs.TraceFail
/-! C122: neither side of the handshake waits for the other. -/

namespace Husk

open Item Spec TlsReader TlsClient

/-! ### Specification -/

/-- A server that waits for the client: it sends its first flight when the ClientHello has come, and its ChangeCipherSpec and Finished only when the whole
of the client's second flight has come. `answer w` is what the client can read, in whatever pieces, once the server has received `w`. -/
structure Answers (S : Session) (fs1 fs2 : List Bytes) (answer : Bytes → Reader) : Prop where
  flight : Cuts fs1 S.flight
  finished : Cuts fs2 (finishedBytes S.serverVerify)
  hello : ∀ w, recordBytes 22 3 3 (clientHelloBytes S.random) <+: w → ∃ l, (answer w).stream = ofBytes (fs1.flatMap (recordBytes 22 3 3)) ++ l
  last : ∀ w, (clientFlight S.random S.point S.keys S.clientVerify).flatten <+: w → ∃ l, (answer w).stream = ofBytes (serverWire S fs1 fs2) ++ l

/-- The bytes on the wire after the client has done all it can with what `rd` holds. -/
def sentWith (m : Mode) (rng : Rng) (rd : Reader) : Bytes := (TlsClient.new m rd {} rng).2.writer.writer.wire

/-- What the client can read after `n` turns: at first nothing; then what the server answers to what the client sent with what it could read before. -/
def talk (m : Mode) (rng : Rng) (answer : Bytes → Reader) : Nat → Reader
  | 0 => ⟨[]⟩
  | n + 1 => answer (sentWith m rng (talk m rng answer n))

/-! ### Proofs -/

/-- What `new` sends begins with what its handshake sent. -/
theorem new_extends {m : Mode} {rd : Reader} {wr : Writer} {rng : Rng} {x : Res Unit} {c : TlsClient} (h : (handshake m).run (fresh rd wr rng) = (x, c))
    (hs : c.writer.SealsShort) (hn : c.writer.writeCount.toNat ≤ 3) : c.writer.writer.wire <+: (TlsClient.new m rd wr rng).2.writer.writer.wire := by
  rw [new_run, h]
  cases x with
  | err k =>
    dsimp only
    by_cases hk : k = .IoFailure
    · rw [hk, sendAlert_io]
    · obtain ⟨ct, -, w', ⟨g2, g3⟩ | ⟨g2, -, n, g4⟩⟩ := sendAlert_cases m k hk c hs hn
      · rw [g2]; exact ⟨_, g3.symm⟩
      · rw [g2]; exact ⟨_, g4.symm⟩
  | _ => exact List.prefix_rfl

/-- C122: the client does not wait for anything before it sends the ClientHello. -/
theorem C122_hello (m : Mode) (rd : Reader) (wr : Writer) (rng : Rng) (hfa : wr.faults = []) {random rest : Bytes} (hrng : rng.bytes = random ++ rest) (hr : random.length = 32) :
    wr.wire ++ recordBytes 22 3 3 (clientHelloBytes random) <+: (TlsClient.new m rd wr rng).2.writer.writer.wire := by
  obtain ⟨out, h1, ⟨h2, -⟩ | ⟨random', rest', h2, h3, h4 | ⟨h4, -⟩⟩⟩ := C31_hello_first m rd wr rng
  · rw [hrng, List.length_append] at h2; omega
  · rw [hrng] at h2
    obtain ⟨rfl, -⟩ := List.append_inj h2 (hr.trans h3.symm)
    rw [h1]
    exact List.prefix_append_right_inj _ |>.mpr h4
  · exact absurd hfa h4

/-- C122: with the server's first flight come, the client sends all of its second flight, whatever comes after the flight, or nothing. -/
theorem C122_flight (m : Mode) (rd : Reader) (wr : Writer) (rng : Rng) (hfa : wr.faults = []) {random block rest : Bytes} (D : Draws rng.bytes random block rest)
    {V : ServerValues} (hV : V.Conforms) {S : Session} (hS : S = V.session random (clientPoint block)) {fs1 : List Bytes} (hc : Cuts fs1 S.flight) (l : List Sym)
    (hrd : rd.stream = ofBytes (fs1.flatMap (recordBytes 22 3 3)) ++ l) :
    wr.wire ++ (clientFlight S.random S.point S.keys S.clientVerify).flatten <+: (TlsClient.new m rd wr rng).2.writer.writer.wire := by
  have hp := hc.pending rd l hrd
  rw [hS, ← first_four, ← List.append_nil (V.first 4)] at hp
  obtain ⟨more, hm, hk⟩ := hV.keys D m
  obtain ⟨f, hfit, v1, v3, f3, f4, f5, b1, b2, b3, hkeys, hcv, -⟩ := session_flight hV random (clientPoint block) S hS
  obtain ⟨k1, k2, k3, k4⟩ := hfit.keys_length D.randomLength
  have hp : ClearPending (TlsReader.new rd) (serverHelloBytes V.random V.sessionId (extPart V.exts) ++ (certificateBytes V.certs ++ (handshakeBytes 12 V.keyExchange ++ (handshakeBytes 14 [] ++ [])))) l := by
    simpa [ServerValues.first, ServerValues.messages] using hp
  obtain ⟨s, w', h1, h2, h3, h4, h5, h6, h7, h8⟩ := handshake_upto_finished m rd wr rng hfa random more hm D.randomLength f _ hfit ⟨rest⟩ v1 v3 (by rw [f3, f4, f5]; exact hk) _ _ _ [] b1 b2 b3 l hp
  have hw := readFinished_writer m (f.master random) (f.keys random).serverKey (f.messages random (Spec.P256.encode (clientPoint block)))
    (.finished ⟨f.clientVerify random (Spec.P256.encode (clientPoint block))⟩) { fresh rd wr rng with writer := w', rng := ⟨rest⟩, reader := s }
  rcases hr : (handshake m).run (fresh rd wr rng) with ⟨x, c⟩
  rw [← h1, hr] at hw
  have hw : c.writer = w' := hw
  have hx := new_extends hr (by rw [hw]; exact CrateWriter.sealsShort ⟨m, _, k1, h5⟩) (by rw [hw, h7]; decide)
  rw [hw, h4, hkeys, hcv] at hx
  rw [show S.random = random by rw [hS]; rfl, show S.point = Spec.P256.encode (clientPoint block) by rw [hS]; rfl]
  exact hx

/-- C122: client and server do not wait for each other: after two turns, and ever after, the handshake is complete. -/
theorem C122_completes (m : Mode) (rng : Rng) {random block rest : Bytes} (D : Draws rng.bytes random block rest)
    {V : ServerValues} (hV : V.Conforms) {S : Session} (hS : S = V.session random (clientPoint block)) {fs1 fs2 : List Bytes} {answer : Bytes → Reader}
    (hA : Answers S fs1 fs2 answer) (n : Nat) (hn : 2 ≤ n) : (TlsClient.new m (talk m rng answer n) {} rng).1 = .ok () := by
  obtain ⟨more, hm, -⟩ := hV.keys D m
  have e : S.random = random := by rw [hS]; rfl
  have a1 : ∀ n, ∃ l, (talk m rng answer (n + 1)).stream = ofBytes (fs1.flatMap (recordBytes 22 3 3)) ++ l := by
    intro n
    refine hA.hello _ ?_
    rw [e]
    exact C122_hello m (talk m rng answer n) {} rng rfl hm D.randomLength
  have a2 : ∀ n, ∃ l, (talk m rng answer (n + 2)).stream = ofBytes (serverWire S fs1 fs2) ++ l := by
    intro n
    obtain ⟨l, hl⟩ := a1 n
    exact hA.last _ (C122_flight m _ {} rng rfl D hV hS hA.flight l hl)
  obtain ⟨k, rfl⟩ : ∃ k, n = k + 2 := ⟨n - 2, by omega⟩
  obtain ⟨l, hl⟩ := a2 k
  obtain ⟨c, h, -⟩ := C29_completes_partial m (talk m rng answer (k + 2)) {} rng rfl random block rest D V hV S hS fs1 fs2 l ⟨hA.flight, hA.finished, hl⟩
  rw [h]

/-! ### The hypotheses can be met -/

/-- A server that sends nothing before it must: its flight only after the ClientHello, its Finished only after the client's. -/
example (random block : Bytes) (hr : random.length = 32) (hb : block.length = 32) (hlt : leNat block < P256.p) (V : ServerValues) (hV : V.Conforms) (S : Session)
    (hS : S = V.session random (clientPoint block)) : Draws (random ++ block) random block [] ∧ ∃ fs1 fs2 answer, Answers S fs1 fs2 answer ∧
      (∀ w, ¬ recordBytes 22 3 3 (clientHelloBytes S.random) <+: w → (answer w).stream = []) ∧
      (∀ w, ¬ (clientFlight S.random S.point S.keys S.clientVerify).flatten <+: w → (answer w).stream <+: ofBytes (fs1.flatMap (recordBytes 22 3 3))) := by
  classical
  have D : Draws (random ++ block) random block [] := ⟨⟨[], by simp, by simp⟩, hr, hb, hlt⟩
  have hh : recordBytes 22 3 3 (clientHelloBytes S.random) <+: (clientFlight S.random S.point S.keys S.clientVerify).flatten := ⟨_, rfl⟩
  refine ⟨D, chunks 16384 S.flight, chunks 16384 (finishedBytes S.serverVerify), fun w =>
    if (clientFlight S.random S.point S.keys S.clientVerify).flatten <+: w then byteByByte (serverWire S (chunks 16384 S.flight) (chunks 16384 (finishedBytes S.serverVerify)))
    else if recordBytes 22 3 3 (clientHelloBytes S.random) <+: w then byteByByte ((chunks 16384 S.flight).flatMap (recordBytes 22 3 3)) else ⟨[]⟩, ⟨?_, ?_, ?_, ?_⟩, ?_, ?_⟩
  · exact cuts_exists _ (by have := flight_length hV hS; omega)
  · exact cuts_exists _ (by simp [finishedBytes, handshakeBytes, serverVerify_length D hV hS])
  · intro w hw
    split
    · exact ⟨_, by rw [stream_byteByByte, serverWire, ofBytes_append]⟩
    · exact ⟨[], by rw [stream_byteByByte, List.append_nil]⟩
  · intro w hw
    rw [if_pos hw]
    exact ⟨[], by rw [stream_byteByByte, List.append_nil]⟩
  · intro w hw
    dsimp only
    rw [if_neg fun h => hw (hh.trans h), if_neg hw]
    rfl
  · intro w hw
    dsimp only
    rw [if_neg hw]
    split
    · rw [stream_byteByByte]
    · exact List.nil_prefix

end Husk
