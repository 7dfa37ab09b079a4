import Verif.Props.Codec
/-! C09 and C10: reassembly of handshake messages. -/

namespace Husk

open Item Spec Codec

/-- What a user of `HandshakeBuffer` does: hand over the fragment of a record, or ask for a message. -/
inductive BufOp
  | add (fragment : Bytes)
  | poll

/-- Runs the operations and collects the messages delivered. -/
def runOps : List BufOp → St HandshakeBuffer (List Handshake)
  | [] => pure []
  | .add f :: ops => do
    HandshakeBuffer.addRecord f
    runOps ops
  | .poll :: ops => do
    match ← HandshakeBuffer.getMessage with
    | some h =>
      let hs ← runOps ops
      return h :: hs
    | none => runOps ops

/-- All fragment bytes handed over. -/
def fragments : List BufOp → Bytes
  | [] => []
  | .add f :: ops => f ++ fragments ops
  | .poll :: ops => fragments ops

/-- A message as a peer may send it: constructible, `Unknown` extensions have unknown types, and the length fits the 24-bit field. -/
def Sendable (h : Handshake) : Prop :=
  BuiltHandshake h ∧ (∀ e ∈ extensionsOf h, NotShadowed e) ∧ TlsItem.size h < 2 ^ 24 + 4

/-- `bs` is the concatenation of the serialised messages. -/
inductive Encodes : List Handshake → Bytes → Prop
  | nil : Encodes [] []
  | cons {h hs b bs} : Sendable h → TlsItem.write h = .ok b → Encodes hs bs → Encodes (h :: hs) (b ++ bs)

namespace HandshakeBuffer

/-- The length field of the message at the front. -/
theorem wanted {b : Bytes} {ty : UInt8} {body x : Bytes} (hb : b = ty :: (beBytes 3 body.length ++ body)) (hl : body.length < 2 ^ 24) :
    beNat (((b ++ x).drop 1).take 3) + 4 = b.length := by
  subst hb
  rw [List.cons_append, List.drop_succ_cons, List.drop_zero, List.append_assoc, List.take_append_of_le_length (by simp),
    List.take_of_length_le (by simp), beNat_beBytes, Nat.mod_eq_of_lt (by simpa using hl)]
  simp
  omega

theorem getMessage_front {h : Handshake} {b x : Bytes} (hs : Sendable h) (hw : TlsItem.write h = .ok b) :
    getMessage.run ⟨b ++ x⟩ = (.ok (some h), ⟨x⟩) := by
  obtain ⟨body, hb, hl⟩ := C06_handshake_length_partial h b hs.1 hs.2.2 hw
  have h4 : 4 ≤ b.length := by rw [hb]; simp
  have hwant := wanted (x := x) hb hl
  unfold getMessage
  simp only
  rw [if_neg (by simp; omega), hwant, if_neg (by simp), List.take_left', List.drop_left', C01_roundtrip_partial h b hs.1 hs.2.1 hw]
  · rfl
  · rfl

theorem getMessage_prefix {h : Handshake} {b buf t : Bytes} (hs : Sendable h) (hw : TlsItem.write h = .ok b) (hp : buf ++ t = b) (ht : t ≠ []) :
    getMessage.run ⟨buf⟩ = (.ok none, ⟨buf⟩) := by
  obtain ⟨body, hb, hl⟩ := C06_handshake_length_partial h b hs.1 hs.2.2 hw
  have htl : 0 < t.length := List.length_pos_iff.mpr ht
  unfold getMessage
  simp only
  split
  · rfl
  · rename_i h4
    have hwant := wanted (x := []) hb hl
    rw [List.append_nil, ← hp] at hwant
    have e : (((buf ++ t).drop 1).take 3) = ((buf.drop 1).take 3) := by
      rw [List.drop_append_of_le_length (by omega), List.take_append_of_le_length (by simp; omega)]
    rw [e] at hwant
    rw [if_pos]
    rw [List.length_append] at hwant
    omega

end HandshakeBuffer

open HandshakeBuffer

/-- Either the whole first message is there or only a strict prefix of it. -/
theorem Codec.split_front {b bs buf tail : Bytes} (h : buf ++ tail = b ++ bs) :
    (∃ x, buf = b ++ x ∧ x ++ tail = bs) ∨ (∃ t, t ≠ [] ∧ buf ++ t = b) := by
  rcases List.append_eq_append_iff.mp h with ⟨a, h1, h2⟩ | ⟨c, h1, h2⟩
  · cases a with
    | nil => left; exact ⟨[], by simpa using h1.symm, by simpa using h2⟩
    | cons y ys => right; exact ⟨y :: ys, by simp, h1.symm⟩
  · left; exact ⟨c, h1, h2.symm⟩

/-- C09: for every sequence of messages, every fragmentation of (a prefix of) their bytes and every interleaving of polls, the messages
delivered are the first `k` messages in order, no poll fails, and the buffer holds exactly the bytes of the remaining messages received so far. -/
theorem C09_reassembly (ops : List BufOp) (hs : List Handshake) (bs tail : Bytes) (henc : Encodes hs bs) (hf : fragments ops ++ tail = bs) :
    ∃ k buf, (runOps ops).run {} = (.ok (hs.take k), buf) ∧ Encodes (hs.drop k) (buf.buf ++ tail) := by
  suffices H : ∀ (ops : List BufOp) (hs : List Handshake) (bs buf tail : Bytes), Encodes hs bs → buf ++ fragments ops ++ tail = bs →
      ∃ k buf', (runOps ops).run ⟨buf⟩ = (.ok (hs.take k), buf') ∧ Encodes (hs.drop k) (buf'.buf ++ tail) from
    H ops hs bs [] tail henc (by simpa using hf)
  intro ops
  induction ops with
  | nil =>
    intro hs bs buf tail henc hf
    exact ⟨0, ⟨buf⟩, rfl, by simpa [fragments, ← hf] using henc⟩
  | cons op ops ih =>
    intro hs bs buf tail henc hf
    cases op with
    | add f =>
      obtain ⟨k, buf', h1, h2⟩ := ih hs bs (buf ++ f) tail henc (by simpa [fragments] using hf)
      exact ⟨k, buf', h1, h2⟩
    | poll =>
      have hgo : ∀ r b', getMessage.run ⟨buf⟩ = (.ok r, b') → (runOps (.poll :: ops)).run ⟨buf⟩ = (match r with
          | some h => (do let hs ← runOps ops; return h :: hs : St HandshakeBuffer _)
          | none => runOps ops).run b' := by
        intro r b' hr
        rw [runOps, St.bind_of_ok hr]
      cases henc with
      | nil =>
        have : buf = [] := by simp [fragments] at hf; exact hf.1
        subst this
        obtain ⟨k, buf', h1, h2⟩ := ih [] [] [] tail .nil (by simpa [fragments] using hf)
        exact ⟨k, buf', by rw [hgo none ⟨[]⟩ rfl]; exact h1, h2⟩
      | @cons h hs b bs hsend hw hrest =>
        rw [List.append_assoc] at hf
        rcases Codec.split_front hf with ⟨x, rfl, hx⟩ | ⟨t, ht, hp⟩
        · obtain ⟨k, buf', h1, h2⟩ := ih hs bs x tail hrest (by rw [← hx]; simp [fragments])
          refine ⟨k + 1, buf', ?_, by simpa using h2⟩
          rw [hgo _ _ (getMessage_front hsend hw), St.bind_of_ok h1]
          rfl
        · obtain ⟨k, buf', h1, h2⟩ := ih (h :: hs) (b ++ bs) buf tail (.cons hsend hw hrest) (by rw [← hf]; simp [fragments])
          exact ⟨k, buf', by rw [hgo _ _ (getMessage_prefix hsend hw hp ht)]; exact h1, h2⟩

/-- C09: once all bytes have been handed over, as many further polls as there are messages deliver everything. -/
theorem C09_all_delivered (ops : List BufOp) (hs : List Handshake) (bs : Bytes) (henc : Encodes hs bs) (hf : fragments ops = bs) :
    (runOps (ops ++ List.replicate hs.length .poll)).run {} = (.ok hs, {}) := by
  have app : ∀ (ops ops' : List BufOp) (s s1 s2 : HandshakeBuffer) (a b : List Handshake), (runOps ops).run s = (.ok a, s1) → (runOps ops').run s1 = (.ok b, s2) →
      (runOps (ops ++ ops')).run s = (.ok (a ++ b), s2) := by
    intro ops
    induction ops with
    | nil =>
      intro ops' s s1 s2 a b h1 h2
      rw [runOps, St.pure_run] at h1
      simp at h1
      obtain ⟨rfl, rfl⟩ := h1
      exact h2
    | cons op ops ih =>
      intro ops' s s1 s2 a b h1 h2
      cases op with
      | add f => exact ih ops' _ s1 s2 a b h1 h2
      | poll =>
        rw [runOps] at h1
        obtain ⟨r, s', h3, h4⟩ := St.bind_eq_ok h1
        rw [List.cons_append, runOps, St.bind_of_ok h3]
        cases r with
        | none => exact ih ops' _ s1 s2 a b h4 h2
        | some h =>
          obtain ⟨hs, s'', h5, h6⟩ := St.bind_eq_ok h4
          rw [St.pure_run] at h6
          simp at h6
          obtain ⟨rfl, rfl⟩ := h6
          simp only
          rw [St.bind_of_ok (ih ops' _ _ s2 hs b h5 h2)]
          rfl
  have drain : ∀ (n : Nat) (hs : List Handshake) (bs : Bytes), Encodes hs bs → hs.length ≤ n →
      (runOps (List.replicate n .poll)).run ⟨bs⟩ = (.ok hs, {}) := by
    intro n
    induction n with
    | zero =>
      intro hs bs he hn
      have : hs = [] := List.length_eq_zero_iff.mp (by omega)
      subst this
      cases he
      rfl
    | succ n ih =>
      intro hs bs he hn
      cases he with
      | nil =>
        rw [List.replicate_succ, runOps, St.bind_of_ok (a := none) (s' := ⟨[]⟩) rfl]
        exact ih [] [] .nil (by simp)
      | @cons h hs b bs hsend hw hrest =>
        rw [List.replicate_succ, runOps, St.bind_of_ok (getMessage_front hsend hw)]
        simp only
        rw [St.bind_of_ok (ih hs bs hrest (by simpa using hn))]
        rfl
  obtain ⟨k, buf, h1, h2⟩ := C09_reassembly ops hs bs [] henc (by simpa using hf)
  have h3 := drain hs.length (hs.drop k) buf.buf (by simpa using h2) (by simp)
  have := app _ _ _ _ _ _ _ h1 h3
  rwa [List.take_append_drop] at this

example : ∃ bs, Encodes [.server_hello_done ⟨⟩, .finished ⟨List.replicate 12 5⟩] bs :=
  ⟨_, .cons ⟨trivial, by simp [extensionsOf], by decide⟩ rfl (.cons ⟨⟨List.replicate 12 5, by decide⟩, by simp [extensionsOf], by decide⟩ rfl .nil)⟩

/-- C10: while fewer than four bytes, or fewer bytes than the length field announces, are there, nothing is delivered and nothing is lost. -/
theorem C10_incomplete (buf : Bytes) (h : buf.length < 4 ∨ buf.length < beNat ((buf.drop 1).take 3) + 4) :
    getMessage.run ⟨buf⟩ = (.ok none, ⟨buf⟩) := by
  unfold getMessage
  simp only
  rcases h with h | h
  · rw [if_pos h]
  · split
    · rfl
    · first | rfl | rw [if_pos h]

/-- C10: every strict prefix of a serialised message counts as incomplete. -/
theorem C10_strict_prefix (h : Handshake) (b buf t : Bytes) (hs : Sendable h) (hw : TlsItem.write h = .ok b) (hp : buf ++ t = b) (ht : t ≠ []) :
    getMessage.run ⟨buf⟩ = (.ok none, ⟨buf⟩) := getMessage_prefix hs hw hp ht

/-- C10: a complete message, good or bad, is taken out of the buffer together with exactly its own bytes. -/
theorem C10_complete (ty : UInt8) (body rest : Bytes) (hl : body.length < 2 ^ 24) :
    (getMessage.run ⟨ty :: (beBytes 3 body.length ++ body) ++ rest⟩).2 = ⟨rest⟩ ∧
    (getMessage.run ⟨ty :: (beBytes 3 body.length ++ body) ++ rest⟩).1 =
      (((TlsItem.read (α := Handshake)).run (ty :: (beBytes 3 body.length ++ body))).1 >>= fun h => .ok (some h)) := by
  have hwant := wanted (b := ty :: (beBytes 3 body.length ++ body)) (x := rest) rfl hl
  have h4 : ¬ (ty :: (beBytes 3 body.length ++ body) ++ rest).length < 4 := by simp
  have h5 : ¬ (ty :: (beBytes 3 body.length ++ body) ++ rest).length < (ty :: (beBytes 3 body.length ++ body)).length := by simp
  unfold getMessage
  simp only
  rw [if_neg h4, hwant, if_neg h5, List.take_left', List.drop_left']
  · cases ((TlsItem.read (α := Handshake)).run (ty :: (beBytes 3 body.length ++ body))).1 <;> exact ⟨rfl, rfl⟩
  · rfl
  · rfl

/-- C10: a complete message of unknown type is dropped and reported; the bytes behind it stay. -/
theorem C10_unknown_type (ty : UInt8) (body rest : Bytes) (hl : body.length < 2 ^ 24) (hty : ty.toNat ∉ [0, 1, 2, 11, 12, 13, 14, 16, 20]) :
    getMessage.run ⟨ty :: (beBytes 3 body.length ++ body) ++ rest⟩ = (.err .UnexpectedMessage, ⟨rest⟩) := by
  obtain ⟨h1, h2⟩ := C10_complete ty body rest hl
  have hread : ((TlsItem.read (α := Handshake)).run (ty :: (beBytes 3 body.length ++ body))).1 = .err .UnexpectedMessage := by
    simp only [TlsItem.read]
    have e1 : (readNum 1).run (ty :: (beBytes 3 body.length ++ body)) = (.ok ty.toNat, writeNum 3 body.length ++ body) := by
      have := readNum_append 1 ty.toNat (beBytes 3 body.length ++ body) (by have := ty.toNat_lt; omega)
      rwa [writeNum_one] at this
    rw [St.bind_of_ok e1, St.bind_of_ok (readNum_append 3 body.length body (by simpa using hl))]
    have : Handshake.readArm ty.toNat = St.err .UnexpectedMessage := by
      simp only [List.mem_cons, List.not_mem_nil, or_false, not_or] at hty
      obtain ⟨t0, t1, t2, t3, t4, t5, t6, t7, t8⟩ := hty
      unfold Handshake.readArm
      rw [if_neg t0, if_neg t1, if_neg t2, if_neg t3, if_neg t4, if_neg t5, if_neg t6, if_neg t7, if_neg t8]
    rw [this]
    rfl
  rw [hread] at h2
  exact Prod.ext h2 h1

/-- C10: polling never panics or loops, whatever is in the buffer. -/
theorem C10_total (s : HandshakeBuffer) : (getMessage.run s).1.Returns := by
  unfold getMessage
  simp only
  split
  · trivial
  · split
    · trivial
    · have := C04_total (s.buf.take (beNat ((s.buf.drop 1).take 3) + 4))
      revert this
      cases ((TlsItem.read (α := Handshake)).run (s.buf.take (beNat ((s.buf.drop 1).take 3) + 4))).1 <;> intro h <;> exact h

end Husk
