import Verif.Props.HandshakeConstantTime
import Verif.Props.HandshakeOrder
/-! C121: warnings and HelloRequests between the messages of the handshake. -/

namespace Husk

open Item Spec TlsReader TlsClient

/-! ### Specification -/

/-- What a server may send between its messages. RFC 5246, 7.4.1.1: a HelloRequest "will be ignored by the client if the client is currently negotiating a session". 7.2.2: "If an alert with a level of
warning is sent and received, generally the connection can continue normally"; RFC 6066, 3 has the server send unrecognized_name in this way. -/
inductive Interjection
  | helloRequest
  | warning (d : AlertDescription)

/-- The record that carries it. -/
def Interjection.record : Interjection → Bytes
  | .helloRequest => recordBytes 22 3 3 [0, 0, 0, 0]
  | .warning d => recordBytes 21 3 3 [1, alertNumber d]

noncomputable section

/-- The messages of the server's first flight from the `i`th on. -/
def ServerValues.after (V : ServerValues) (i : Nat) : Bytes := (V.messages.drop i).flatten

/-- What a conforming server sends, cut into records in any way, with `x` after the first `i` messages. -/
structure Interrupted (V : ServerValues) (S : Session) (i : Nat) (x : Interjection) (fs fs1 fs2 : List Bytes) (rd : Reader) : Prop where
  position : i ≤ 4
  before : Cuts fs (V.first i)
  few : fs.length + 1 < 2 ^ 63
  after : Cuts fs1 (V.after i)
  finished : Cuts fs2 (finishedBytes S.serverVerify)
  stream : rd.stream = ofBytes (fs.flatMap (recordBytes 22 3 3) ++ (x.record ++ serverWire S fs1 fs2))

/-- C121: no interjection other than close_notify keeps the handshake with a conforming server from being completed. -/
def Undisturbed (m : Mode) : Prop := ∀ (rd : Reader) (wr : Writer) (rng : Rng) (random block rest : Bytes) (V : ServerValues) (S : Session) (i : Nat) (x : Interjection) (fs fs1 fs2 : List Bytes),
  wr.faults = [] → Draws rng.bytes random block rest → V.Conforms → S = V.session random (clientPoint block) → x ≠ .warning .close_notify → Interrupted V S i x fs fs1 fs2 rd →
  ∃ c, TlsClient.new m rd wr rng = (.ok (), c)

/-- What becomes of it. -/
def interjected (i : Nat) : Interjection → TlsErrorKind
  | .helloRequest => .UnexpectedMessage
  | .warning _ => if i < 4 then .AlertReceived else .UnexpectedMessage

/-! ### Proof -/

theorem unfinished_nil : Unfinished [] := ⟨0, [], handshakeBytes 0 [], by simp, rfl, by simp [handshakeBytes]⟩

theorem helloRequest_read : (TlsItem.read (α := Handshake)).run (handshakeBytes 0 []) = (.ok (.hello_request ⟨⟩), []) := rfl

theorem alertNumber_payload (d : AlertDescription) : [1, alertNumber d] = alertPayload ⟨.warning, d⟩ := rfl

theorem Cuts.snoc {fs : List Bytes} {b x : Bytes} (h : Cuts fs b) (hn : fs.length + 1 < 2 ^ 63) (hx : x ≠ []) (hl : x.length ≤ 2 ^ 14) : Cuts (fs ++ [x]) (b ++ (x ++ [])) := by
  refine ⟨fun f hf => ?_, by rw [List.length_append]; exact hn, by rw [List.flatten_append, h.2.2]; simp⟩
  rcases List.mem_append.mp hf with hf | hf
  · exact h.1 f hf
  · rw [List.mem_singleton.mp hf]; exact ⟨hx, hl⟩

/-! ### C121 -/

/-- C121 fails at every position, of every interjection, with every conforming server: the handshake ends in an error. -/
theorem C121_disturbs (m : Mode) (rd : Reader) (wr : Writer) (rng : Rng) (random block rest : Bytes) (V : ServerValues) (S : Session) (i : Nat) (x : Interjection) (fs fs1 fs2 : List Bytes)
    (hfa : wr.faults = []) (D : Draws rng.bytes random block rest) (hV : V.Conforms) (h : Interrupted V S i x fs fs1 fs2 rd) : (TlsClient.new m rd wr rng).1 = .err (interjected i x) := by
  have hs := h.stream
  cases x with
  | helloRequest =>
    have hc : Cuts (fs ++ [handshakeBytes 0 []]) (V.first i ++ (handshakeBytes 0 [] ++ [])) := h.before.snoc h.few (by simp [handshakeBytes]) (by simp [handshakeBytes])
    have hs' : rd.stream = ofBytes ((fs ++ [handshakeBytes 0 []]).flatMap (recordBytes 22 3 3)) ++ ofBytes (serverWire S fs1 fs2) := by
      rw [hs, ← ofBytes_append, List.flatMap_append, List.append_assoc]
      rfl
    by_cases hi : i < 4
    · refine C62_flight m rd wr rng hfa D hV i hi _ 0 [] [] (by simp) helloRequest_read ?_ _ hc _ hs'
      have : i = 0 ∨ i = 1 ∨ i = 2 ∨ i = 3 := by omega
      rcases this with rfl | rfl | rfl | rfl <;> decide
    · have hi4 : i = 4 := by have := h.position; omega
      subst hi4
      exact C62_no_change m rd wr rng hfa D hV _ 0 [] [] (by simp) helloRequest_read _ hc _ hs'
  | warning d =>
    have hc : Cuts fs (V.first i ++ []) := by rw [List.append_nil]; exact h.before
    have hs' : rd.stream = ofBytes (fs.flatMap (recordBytes 22 3 3)) ++ (ofBytes (recordBytes 21 3 3 (alertPayload ⟨.warning, d⟩)) ++ ofBytes (serverWire S fs1 fs2)) := by
      rw [hs, ← ofBytes_append, ← ofBytes_append]
      rfl
    by_cases hi : i < 4
    · rw [interjected, if_pos hi]
      exact C63_flight_partial m rd wr rng hfa D hV i hi [] unfinished_nil _ _ hc _ hs'
    · rw [interjected, if_neg hi]
      have hi4 : i = 4 := by have := h.position; omega
      subst hi4
      exact C63_alert_lost m rd wr rng hfa D hV [] unfinished_nil _ _ hc _ hs'

/-- Partial C121 (missing: every interjection): without one the handshake with the same server is completed. -/
theorem C121_without_partial (m : Mode) (rd : Reader) (wr : Writer) (rng : Rng) (random block rest : Bytes) (V : ServerValues) (S : Session) (i : Nat) (fs fs1 fs2 : List Bytes)
    (hfa : wr.faults = []) (D : Draws rng.bytes random block rest) (hV : V.Conforms) (hS : S = V.session random (clientPoint block)) (hi : i ≤ 4) (h1 : Cuts fs (V.first i)) (h2 : Cuts fs1 (V.after i))
    (hn : fs.length + fs1.length < 2 ^ 63) (h3 : Cuts fs2 (finishedBytes S.serverVerify)) (hs : rd.stream = ofBytes (fs.flatMap (recordBytes 22 3 3) ++ serverWire S fs1 fs2)) :
    ∃ c, TlsClient.new m rd wr rng = (.ok (), c) := by
  have hc : Cuts (fs ++ fs1) (S.flight ++ []) := by
    refine ⟨fun f hf => ?_, by rw [List.length_append]; exact hn, ?_⟩
    · rcases List.mem_append.mp hf with hf | hf
      · exact h1.1 f hf
      · exact h2.1 f hf
    · rw [List.flatten_append, h1.2.2, h2.2.2, ServerValues.first, ServerValues.after, ← List.flatten_append, List.take_append_drop, List.append_nil, hS, ← first_four, ServerValues.first,
        List.take_of_length_le (by simp [ServerValues.messages])]
  obtain ⟨c, r1, -⟩ := run_completed m rd wr rng hfa D hV hS [] (finishedBytes S.serverVerify) rfl (by simp [finishedBytes, handshakeBytes]) (fs ++ fs1) fs2 hc h3 []
    (by rw [hs, serverWire, serverWire, List.flatMap_append]; simp)
  exact ⟨c, r1⟩

/-- The same between the ChangeCipherSpec and the Finished, for warnings. -/
theorem C121_before_finished (m : Mode) (rd : Reader) (wr : Writer) (rng : Rng) (random block rest : Bytes) (V : ServerValues) (S : Session) (d : AlertDescription) (fs : List Bytes) (l : List Sym)
    (hfa : wr.faults = []) (D : Draws rng.bytes random block rest) (hV : V.Conforms) (hS : S = V.session random (clientPoint block)) (hc : Cuts fs (V.first 4))
    (hs : rd.stream = ofBytes (fs.flatMap (recordBytes 22 3 3) ++ (recordBytes 20 3 3 [1] ++ protectedRecord S.keys.serverKey S.keys.serverIv 0 21 [1, alertNumber d])) ++ l) :
    (TlsClient.new m rd wr rng).1 = .err .AlertReceived :=
  C63_finished_partial m rd wr rng hfa D hV hS [] unfinished_nil ⟨.warning, d⟩ fs (by rw [List.append_nil]; exact hc) l hs

/-- There are such servers, for every interjection: this one sends unrecognized_name before its ServerHello. -/
theorem interrupted_exists (x : Interjection) : ∃ (rd : Reader) (rng : Rng) (random block : Bytes) (V : ServerValues) (S : Session) (fs1 fs2 : List Bytes),
    Draws rng.bytes random block [] ∧ V.Conforms ∧ S = V.session random (clientPoint block) ∧ Interrupted V S 0 x [] fs1 fs2 rd := by
  obtain ⟨V, hV⟩ : ∃ V : ServerValues, V.Conforms := ⟨{ random := List.replicate 32 7, secret := 1 },
    ⟨by simp, by simp, by simp, by simp, by decide, by rw [one_nsmul]; exact Spec.P256.G_ne_zero, by simp⟩⟩
  obtain ⟨random, hr⟩ : ∃ random : Bytes, random.length = 32 := ⟨List.replicate 32 0, by decide⟩
  obtain ⟨block, hb, hp⟩ : ∃ block : Bytes, block.length = 32 ∧ leNat block < P256.p := ⟨1 :: List.replicate 31 0, by decide, by decide⟩
  have D : Draws (random ++ block) random block [] := ⟨⟨[], by simp, by simp⟩, hr, hb, hp⟩
  obtain ⟨S, hS⟩ : ∃ S, S = V.session random (clientPoint block) := ⟨_, rfl⟩
  have hl := finishedBytes_length (serverVerify_length D hV hS)
  have ha : V.after 0 = S.flight := by
    rw [hS, ← first_four, ServerValues.first, List.take_of_length_le (by simp [ServerValues.messages])]
    rfl
  have hc : Cuts (chunks 16384 S.flight) S.flight := cuts_exists _ (by have := flight_length hV hS; omega)
  obtain ⟨fs1, hfs1⟩ : ∃ fs1, Cuts fs1 (V.after 0) := ⟨_, by rw [ha]; exact hc⟩
  exact ⟨byteByByte _, ⟨random ++ block⟩, random, block, V, S, fs1, [finishedBytes S.serverVerify], D, hV, hS, by omega, ⟨fun f hf => (by cases hf), by simp, rfl⟩, by simp, hfs1, cuts_one hl,
    stream_byteByByte _⟩

theorem C121_false (m : Mode) : ¬ Undisturbed m := by
  intro h
  obtain ⟨rd, rng, random, block, V, S, fs1, fs2, D, hV, hS, hI⟩ := interrupted_exists (.warning .unrecognized_name)
  obtain ⟨c, hc⟩ := h rd {} rng random block [] V S 0 _ [] fs1 fs2 rfl D hV hS (by simp) hI
  have := C121_disturbs m rd {} rng random block [] V S 0 _ [] fs1 fs2 rfl D hV hI
  rw [hc] at this
  cases this

end

end Husk
