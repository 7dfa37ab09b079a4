import Verif.Props.Behaviour
import Verif.Props.Truncation
import Verif.Props.Forgery
import Verif.Props.Acceptance
import Verif.Props.HandshakeConstantTime
/-! C119: what the peer gets of a `write` that returns an error, and of the call made again. -/

namespace Husk

open Item Spec TlsReader TlsClient

/-! ### Specification -/

/-- The peer reads with the same key, expects the record with number `k` next, and has received nothing but `wire`. -/
structure Peer (m : Mode) (key iv : Bytes) (k : Nat) (wire : Bytes) (s : TlsReader) : Prop where
  decryptor : s.decryptor = some (.chacha m key)
  iv : s.iv = some iv
  count : s.readCount.toNat = k
  buffer : s.handshakeBuffer = ⟨[]⟩
  stream : s.reader.stream = ofBytes wire

/-- C119, the contract of `std::io::Write::write`: "If an error is returned then no bytes in the buffer were written to this writer." -/
def ErrorMeansNothing : Prop := ∀ (m m' : Mode) (key iv : Bytes) (k : Nat) (c c' : TlsClient) (buf out data : Bytes) (x : TlsErrorKind) (peer s' : TlsReader) (e : Halt),
  key.length = 32 → iv.length = 12 → Keyed m key iv k c.writer → k + (chunks 16384 buf).length < 2 ^ 64 → (TlsClient.write m buf).run c = (.err x, c') →
  c'.writer.writer.wire = c.writer.writer.wire ++ out → Peer m' key iv k out peer → Room peer → Arrives peer data e s' → data = []

/-- The program writes one buffer after the other and stops when a call does not return Ok; the number of calls that did. -/
def writeMany (m : Mode) : List Bytes → TlsClient → Nat × TlsClient
  | [], c => (0, c)
  | b :: bs, c =>
    match (TlsClient.write m b).run c with
    | (.ok _, c) => ((writeMany m bs c).1 + 1, (writeMany m bs c).2)
    | (_, c) => (0, c)

/-! ### Proof: what is sent -/

theorem sendPieces_sent (ps : List Bytes) : ∀ {fs fs' : List (Option Nat)} {b : Bytes} {ok : Bool}, sendPieces ps fs = (b, ok, fs') →
    (ok = true → b = ps.flatten) ∧ (ok = false → ∃ n, b = ps.flatten.take n) := by
  induction ps with
  | nil =>
    intro fs fs' b ok h
    simp only [sendPieces, Prod.mk.injEq] at h
    obtain ⟨rfl, rfl, -⟩ := h
    exact ⟨fun _ => rfl, fun h => by cases h⟩
  | cons p ps ih =>
    intro fs fs' b ok h
    simp only [sendPieces] at h
    rcases hp : sendPiece p fs with ⟨b1, ok1, fs1⟩
    rw [hp] at h
    cases ok1 with
    | true =>
      have hb1 : b1 = p := by
        cases fs with
        | nil => simp only [sendPiece, Prod.mk.injEq] at hp; exact hp.1.symm
        | cons f fs => cases f <;> simp [sendPiece] at hp; exact hp.1.symm
      subst hb1
      rcases hq : sendPieces ps fs1 with ⟨b2, ok2, fs2⟩
      dsimp only at h
      rw [hq] at h
      simp only [Prod.mk.injEq] at h
      obtain ⟨rfl, rfl, rfl⟩ := h
      obtain ⟨h1, h2⟩ := ih hq
      refine ⟨fun e => by rw [h1 e, List.flatten_cons], fun e => ?_⟩
      obtain ⟨n, hn⟩ := h2 e
      exact ⟨b1.length + n, by rw [hn, List.flatten_cons, List.take_length_add_append]⟩
    | false =>
      dsimp only at h
      cases h
      refine ⟨fun e => (by cases e), fun _ => ?_⟩
      cases fs with
      | nil => simp [sendPiece] at hp
      | cons f fs =>
        cases f with
        | none => simp [sendPiece] at hp
        | some n =>
          simp only [sendPiece, Prod.mk.injEq] at hp
          refine ⟨min n p.length, ?_⟩
          rw [← hp.1, List.flatten_cons, List.take_append_of_le_length (Nat.min_le_right _ _)]
          rcases Nat.le_total n p.length with h | h
          · rw [Nat.min_eq_left h]
          · rw [Nat.min_eq_right h, List.take_of_length_le h, List.take_length]

theorem recordPieces_flatten (key iv : Bytes) (k : Nat) (ty : UInt8) (f : Bytes) : (recordPieces key iv k ty f).flatten = protectedRecord key iv k ty f := by
  simp [recordPieces, protectedRecord, recordBytes, sealMsg_len]

theorem sendItems_fails {key iv : Bytes} (cs : List Bytes) : ∀ {k k' : Nat} {fs fs' : List (Option Nat)} {b : Bytes}, sendItems key iv k (cs.map fun f => (23, f)) fs = (b, false, k', fs') →
    ∃ done f rest n, cs = done ++ f :: rest ∧ b = protectedRecords key iv 23 k done ++ (protectedRecord key iv (k + done.length) 23 f).take n := by
  induction cs with
  | nil => intro k k' fs fs' b h; simp [sendItems] at h
  | cons c cs ih =>
    intro k k' fs fs' b h
    simp only [List.map_cons, sendItems] at h
    rcases hp : sendPieces (recordPieces key iv k 23 c) fs with ⟨b1, ok1, fs1⟩
    rw [hp] at h
    obtain ⟨g1, g2⟩ := sendPieces_sent _ hp
    rw [recordPieces_flatten] at g1 g2
    cases ok1 with
    | true =>
      rcases hq : sendItems key iv (k + 1) (cs.map fun f => (23, f)) fs1 with ⟨b2, ok2, k2, fs2⟩
      dsimp only at h
      rw [hq] at h
      simp only [Prod.mk.injEq] at h
      obtain ⟨rfl, rfl, rfl, rfl⟩ := h
      obtain ⟨done, f, rest, n, rfl, hb⟩ := ih hq
      refine ⟨c :: done, f, rest, n, rfl, ?_⟩
      rw [hb, g1 rfl, protectedRecords, List.append_assoc, List.length_cons, Nat.add_right_comm, Nat.add_assoc]
    | false =>
      simp only [Prod.mk.injEq] at h
      obtain ⟨rfl, -⟩ := h
      obtain ⟨n, hn⟩ := g2 rfl
      exact ⟨[], c, cs, n, rfl, hn⟩

theorem sendItems_all (key iv : Bytes) (cs : List Bytes) : ∀ k, sendItems key iv k (cs.map fun f => (23, f)) [] = (protectedRecords key iv 23 k cs, true, k + cs.length, []) := by
  have pieces : ∀ ps : List Bytes, sendPieces ps [] = (ps.flatten, true, []) := by
    intro ps
    induction ps with
    | nil => rfl
    | cons p ps ih => simp [sendPieces, sendPiece, ih]
  induction cs with
  | nil => intro k; rfl
  | cons c cs ih =>
    intro k
    simp only [List.map_cons, sendItems, pieces, recordPieces_flatten, ih, protectedRecords, List.length_cons]
    rw [Nat.add_right_comm, Nat.add_assoc]

theorem write_keyed {m : Mode} {key iv : Bytes} {k : Nat} {c : TlsClient} (hk : key.length = 32) (hi : iv.length = 12) (h : Keyed m key iv k c.writer) (buf : Bytes)
    (hn : k + (chunks 16384 buf).length < 2 ^ 64) {b : Bytes} {ok : Bool} {k' : Nat} {fs' : List (Option Nat)}
    (hs : sendItems key iv k ((chunks 16384 buf).map fun f => (23, f)) c.writer.writer.faults = (b, ok, k', fs')) :
    ∃ w', (TlsClient.write m buf).run c = (if ok then .ok buf.length else .err .IoFailure, { c with writer := w' }) ∧ Keyed m key iv k' w' ∧ w'.writer = ⟨c.writer.writer.wire ++ b, fs'⟩ := by
  obtain ⟨w', h1, h2, h3⟩ := writeChunks_sends hk hi .ApplicationDataTy _ h hn (TlsWriter.chunk_bound buf) hs
  have h1 : (TlsWriter.writeData m .ApplicationDataTy buf).run c.writer = _ := h1
  refine ⟨w', ?_, h3, h2⟩
  rw [TlsClient.write, St.bind_run, writeAll_run, writeApplicationData_run _ _ _ (by rw [h.encryptor]; rfl), h1]
  cases ok <;> rfl

/-! ### Proof: what the peer gets -/

theorem cut_record (key iv : Bytes) (k n : Nat) (f : Bytes) (hf : f.length ≤ 2 ^ 14) (hn : n < f.length + 21) : RecordCut ((protectedRecord key iv k 23 f).take n) := by
  generalize hct : Aead.sealMsg key (recordNonce iv k) (recordAad k 23 3 3 f.length) f = ct
  have hl : ct.length = f.length + 16 := by rw [← hct, sealMsg_len]
  have hr : protectedRecord key iv k 23 f = 23 :: 3 :: 3 :: (beBytes 2 ct.length ++ ct) := by rw [protectedRecord, hct]; rfl
  have hlen : (protectedRecord key iv k 23 f).length = f.length + 21 := protectedRecord_length key iv k 23 f
  refine ⟨?_, ?_⟩
  · intro t ht
    rw [hr] at ht
    cases n with
    | zero => simp at ht
    | succ n => simp at ht; simp [← ht]
  · by_cases h5 : n < 5
    · left; rw [List.length_take]; omega
    · right
      have hb : beNat ((((protectedRecord key iv k 23 f).take n).drop 3).take 2) = ct.length := by
        rw [List.drop_take, hr, List.take_take, Nat.min_eq_left (by omega)]
        show beNat ((beBytes 2 ct.length ++ ct).take 2) = _
        rw [List.take_left' (beBytes_length _ _), beNat_beBytes]
        omega
      rw [hb, hl, List.length_take, hlen]
      omega

/-- Whole records, and then part of one. -/
theorem arrives_records {m : Mode} {key iv : Bytes} (hk : key.length = 32) (hi : iv.length = 12) (p : Bytes) (hp : RecordCut p) (fs : List Bytes) (hf : ∀ f ∈ fs, f.length ≤ 2 ^ 14) :
    ∀ {k : Nat} {s : TlsReader}, Peer m key iv k (protectedRecords key iv 23 k fs ++ p) s → k + fs.length < 2 ^ 64 → ∃ s', Arrives s fs.flatten (.failed .IoFailure) s' := by
  induction fs with
  | nil =>
    intro k s h _
    exact ⟨{ s with reader := ⟨[]⟩ }, .failed (.noRecord (l := []) (by rw [h.buffer]; exact cut_nil) (.stops p [] hp (Or.inl ⟨h.stream, rfl⟩)) ⟨rfl, rfl, rfl, rfl, rfl⟩)⟩
  | cons f fs ih =>
    intro k s h hn
    have hfl := hf f List.mem_cons_self
    obtain ⟨ct, hct⟩ : ∃ ct, ct = Aead.sealMsg key (recordNonce iv k) (recordAad k 23 3 3 f.length) f := ⟨_, rfl⟩
    have hl : ct.length = f.length + 16 := by rw [hct, sealMsg_len]
    have hu : s.unprotect .ApplicationDataTy 3 3 ct = .ok ⟨.ApplicationDataTy, 3, 3, f⟩ := by
      refine unprotect_opened .ApplicationDataTy 3 3 h.decryptor hk h.iv hi hfl ?_
      rw [h.count, hct]
      exact openMsg_sealMsg _ _ _ _
    obtain ⟨s1, hs1⟩ : ∃ s1 : TlsReader, s1 = { s with reader := byteByByte (protectedRecords key iv 23 (k + 1) fs ++ p), readCount := s.readCount + 1 } := ⟨_, rfl⟩
    have hst : s1.reader.stream = ofBytes (protectedRecords key iv 23 (k + 1) fs ++ p) := by rw [hs1]; exact stream_byteByByte _
    have hc1 : s1.readCount.toNat = k + 1 := by
      rw [hs1]
      show (s.readCount + 1).toNat = k + 1
      rw [UInt64.toNat_add, h.count]
      simp only [List.length_cons] at hn
      exact Nat.mod_eq_of_lt (by show k + 1 < _; omega)
    have hP : Peer m key iv (k + 1) (protectedRecords key iv 23 (k + 1) fs ++ p) s1 := ⟨by rw [hs1]; exact h.decryptor, by rw [hs1]; exact h.iv, hc1, by rw [hs1]; exact h.buffer, hst⟩
    obtain ⟨s', hA⟩ := ih (fun g hg => hf g (List.mem_cons_of_mem _ hg)) hP (by simp only [List.length_cons] at hn; omega)
    refine ⟨s', ?_⟩
    rw [List.flatten_cons]
    refine .data (s1 := s1) (.message (r := ⟨.ApplicationDataTy, 3, 3, f⟩) (by rw [h.buffer]; exact cut_nil) ?_ (by rw [hs1]) (.data rfl)) hA
    refine .cons (s1 := s1) (ty := .ApplicationDataTy) (a := 3) (b := 3) (f := ct) (by rw [hl]; show _ ≤ 18432; omega) ?_ hu (by rw [hs1]) (by rw [hs1]) (by rw [hs1]) (.nil rfl rfl rfl rfl)
    rw [h.stream, hst, ← ofBytes_append, ← List.append_assoc, protectedRecords, protectedRecord, ← hct]
    rfl

theorem cut_empty : RecordCut [] := ⟨by simp, Or.inl (by decide)⟩

theorem protectedRecords_append (key iv : Bytes) (ty : UInt8) (a b : List Bytes) : ∀ k, protectedRecords key iv ty k (a ++ b) = protectedRecords key iv ty k a ++ protectedRecords key iv ty (k + a.length) b := by
  induction a with
  | nil => intro k; rfl
  | cons f a ih => intro k; rw [List.cons_append, protectedRecords, ih, protectedRecords, List.append_assoc, List.length_cons, Nat.add_right_comm, Nat.add_assoc]

/-! ### C119 -/

/-- Partial C119 (missing: that the peer gets nothing): the peer gets the beginning of the buffer, in whole records, and then waits for more; it gets all of the buffer only if the
transport has taken all of it. -/
theorem C119_prefix_partial (m m' : Mode) (key iv : Bytes) (k : Nat) (c c' : TlsClient) (buf out data : Bytes) (x : TlsErrorKind) (peer s' : TlsReader) (e : Halt) (hk : key.length = 32)
    (hi : iv.length = 12) (hw : Keyed m key iv k c.writer) (hn : k + (chunks 16384 buf).length < 2 ^ 64) (h : (TlsClient.write m buf).run c = (.err x, c'))
    (ho : c'.writer.writer.wire = c.writer.writer.wire ++ out) (hp : Peer m' key iv k out peer) (hr : Room peer) (hA : Arrives peer data e s') :
    x = .IoFailure ∧ e = .failed .IoFailure ∧ (∃ j, data = buf.take (16384 * j)) ∧ (data = buf → out = protectedRecords key iv 23 k (chunks 16384 buf)) := by
  rcases hs : sendItems key iv k ((chunks 16384 buf).map fun f => (23, f)) c.writer.writer.faults with ⟨b, ok, k', fs'⟩
  obtain ⟨w', h1, -, h3⟩ := write_keyed hk hi hw buf hn hs
  rw [h1] at h
  cases ok with
  | true => cases h
  | false =>
    cases h
    have hob : out = b := List.append_cancel_left (ho.symm.trans (by show w'.writer.wire = _; rw [h3]))
    subst hob
    obtain ⟨done, f, rest, n, hcs, rfl⟩ := sendItems_fails _ hs
    have hlen : ∀ g ∈ chunks 16384 buf, g.length ≤ 2 ^ 14 := fun g hg => chunks_length_le (by decide) buf g hg
    have hfl : f.length ≤ 2 ^ 14 := hlen f (by rw [hcs]; simp)
    have hne : f ≠ [] := chunks_ne_nil (n := 16384) (by decide) buf f (by rw [hcs]; simp)
    have hbuf : done.flatten ++ (f ++ rest.flatten) = buf := by
      have := chunks_flatten (n := 16384) (by decide) buf
      rw [hcs] at this
      simpa using this
    have hd : done.length < (chunks 16384 buf).length := by rw [hcs]; simp
    refine ⟨rfl, ?_⟩
    by_cases hlt : n < f.length + 21
    · obtain ⟨s2, hA2⟩ := arrives_records hk hi _ (cut_record key iv (k + done.length) n f hfl hlt) done (fun g hg => hlen g (by rw [hcs]; simp [hg])) hp (by omega)
      obtain ⟨rfl, rfl, -⟩ := hA.unique hA2 (Same.refl _) hr
      refine ⟨rfl, ⟨done.length, ?_⟩, fun he => ?_⟩
      · rw [← chunks_take (by decide), hcs, List.take_left]
      · rw [← hbuf] at he
        have := congrArg List.length he
        simp only [List.length_append] at this
        exact absurd (List.length_eq_zero_iff.mp (by omega)) hne
    · have hall : protectedRecords key iv 23 k done ++ (protectedRecord key iv (k + done.length) 23 f).take n = protectedRecords key iv 23 k (done ++ [f]) := by
        rw [List.take_of_length_le (by rw [protectedRecord_length]; omega), protectedRecords_append]
        simp [protectedRecords]
      rw [hall] at hp ⊢
      obtain ⟨s2, hA2⟩ := arrives_records hk hi [] cut_empty (done ++ [f]) (fun g hg => hlen g (by rw [hcs]; rcases List.mem_append.mp hg with h | h <;> simp_all)) (by rw [List.append_nil]; exact hp)
        (by simp only [List.length_append, List.length_singleton]; omega)
      obtain ⟨rfl, rfl, -⟩ := hA.unique hA2 (Same.refl _) hr
      refine ⟨rfl, ⟨done.length + 1, ?_⟩, fun he => ?_⟩
      · rw [← chunks_take (by decide), hcs, show done ++ f :: rest = (done ++ [f]) ++ rest by simp, List.take_left' (l₁ := done ++ [f]) (by simp)]
      · have hrest : rest = [] := by
          rw [← hbuf] at he
          have h0 := congrArg List.length he
          simp only [List.flatten_append, List.flatten_cons, List.flatten_nil, List.length_append, List.append_nil] at h0
          cases rest with
          | nil => rfl
          | cons g rest =>
            have : g ≠ [] := chunks_ne_nil (n := 16384) (by decide) buf g (by rw [hcs]; simp)
            have : 0 < g.length := List.length_pos_iff.mpr this
            simp only [List.flatten_cons, List.length_append] at h0
            omega
        rw [hcs, hrest]

/-- Partial C119: of a buffer that fits into one record the peer gets nothing, unless the transport has taken all of the record and reports an error all the same. -/
theorem C119_short_partial (m m' : Mode) (key iv : Bytes) (k : Nat) (c c' : TlsClient) (buf out data : Bytes) (x : TlsErrorKind) (peer s' : TlsReader) (e : Halt) (hk : key.length = 32)
    (hi : iv.length = 12) (hw : Keyed m key iv k c.writer) (hn : k + (chunks 16384 buf).length < 2 ^ 64) (h : (TlsClient.write m buf).run c = (.err x, c'))
    (ho : c'.writer.writer.wire = c.writer.writer.wire ++ out) (hp : Peer m' key iv k out peer) (hr : Room peer) (hA : Arrives peer data e s') (hb : buf.length ≤ 16384)
    (hl : out.length < buf.length + 21) : data = [] := by
  obtain ⟨-, -, ⟨j, hj⟩, hall⟩ := C119_prefix_partial m m' key iv k c c' buf out data x peer s' e hk hi hw hn h ho hp hr hA
  cases j with
  | zero => simpa using hj
  | succ j =>
    have hd : data = buf := by rw [hj, List.take_of_length_le (by omega)]
    by_cases h0 : buf = []
    · rw [hd, h0]
    · exfalso
      rw [hall hd, show chunks 16384 buf = [buf] from chunks_small h0 hb] at hl
      rw [protectedRecords_length] at hl
      simp at hl

theorem sendItems_done {key iv : Bytes} (cs : List Bytes) : ∀ {k k' : Nat} {fs fs' : List (Option Nat)} {b : Bytes}, sendItems key iv k (cs.map fun f => (23, f)) fs = (b, true, k', fs') →
    b = protectedRecords key iv 23 k cs ∧ k' = k + cs.length := by
  induction cs with
  | nil => intro k k' fs fs' b h; simp only [List.map_nil, sendItems, Prod.mk.injEq] at h; exact ⟨h.1.symm, h.2.2.1.symm⟩
  | cons c cs ih =>
    intro k k' fs fs' b h
    simp only [List.map_cons, sendItems] at h
    rcases hp : sendPieces (recordPieces key iv k 23 c) fs with ⟨b1, ok1, fs1⟩
    rw [hp] at h
    obtain ⟨g1, -⟩ := sendPieces_sent _ hp
    rw [recordPieces_flatten] at g1
    cases ok1 with
    | true =>
      rcases hq : sendItems key iv (k + 1) (cs.map fun f => (23, f)) fs1 with ⟨b2, ok2, k2, fs2⟩
      dsimp only at h
      rw [hq] at h
      simp only [Prod.mk.injEq] at h
      obtain ⟨rfl, rfl, rfl, rfl⟩ := h
      obtain ⟨rfl, rfl⟩ := ih hq
      exact ⟨by rw [g1 rfl, protectedRecords], by rw [List.length_cons]; omega⟩
    | false => simp at h

/-- What one call has put on the wire. -/
theorem write_wire {m : Mode} {key iv : Bytes} {k : Nat} {c : TlsClient} (hk : key.length = 32) (hi : iv.length = 12) (hw : Keyed m key iv k c.writer) (buf : Bytes)
    (hn : k + (chunks 16384 buf).length < 2 ^ 64) :
    (∃ c', (TlsClient.write m buf).run c = (.ok buf.length, c') ∧ Keyed m key iv (k + (chunks 16384 buf).length) c'.writer ∧
      c'.writer.writer.wire = c.writer.writer.wire ++ protectedRecords key iv 23 k (chunks 16384 buf)) ∨
    ∃ c' recs p j, (TlsClient.write m buf).run c = (.err .IoFailure, c') ∧ c'.writer.writer.wire = c.writer.writer.wire ++ (protectedRecords key iv 23 k recs ++ p) ∧ RecordCut p ∧
      recs.flatten = buf.take (16384 * j) ∧ recs.length ≤ (chunks 16384 buf).length ∧ ∀ f ∈ recs, f.length ≤ 2 ^ 14 := by
  rcases hs : sendItems key iv k ((chunks 16384 buf).map fun f => (23, f)) c.writer.writer.faults with ⟨b, ok, k', fs'⟩
  obtain ⟨w', h1, h2, h3⟩ := write_keyed hk hi hw buf hn hs
  cases ok with
  | true =>
    left
    obtain ⟨rfl, rfl⟩ := sendItems_done _ hs
    exact ⟨_, h1, h2, by show w'.writer.wire = _; rw [h3]⟩
  | false =>
    right
    obtain ⟨done, f, rest, n, hcs, rfl⟩ := sendItems_fails _ hs
    have hlen : ∀ g ∈ chunks 16384 buf, g.length ≤ 2 ^ 14 := fun g hg => chunks_length_le (by decide) buf g hg
    by_cases hlt : n < f.length + 21
    · refine ⟨_, done, _, done.length, h1, by show w'.writer.wire = _; rw [h3], cut_record key iv (k + done.length) n f (hlen f (by rw [hcs]; simp)) hlt, ?_, by rw [hcs]; simp,
        fun g hg => hlen g (by rw [hcs]; simp [hg])⟩
      rw [← chunks_take (by decide), hcs, List.take_left]
    · refine ⟨_, done ++ [f], [], done.length + 1, h1, ?_, cut_empty, ?_, by rw [hcs]; simp, fun g hg => hlen g (by rw [hcs]; rcases List.mem_append.mp hg with h | h <;> simp_all)⟩
      · show w'.writer.wire = _
        rw [h3, List.take_of_length_le (by rw [protectedRecord_length]; omega), protectedRecords_append]
        simp [protectedRecords]
      · rw [← chunks_take (by decide), hcs, show done ++ f :: rest = (done ++ [f]) ++ rest by simp, List.take_left' (l₁ := done ++ [f]) (by simp)]

theorem writeMany_wire {m : Mode} {key iv : Bytes} (hk : key.length = 32) (hi : iv.length = 12) (bufs : List Bytes) : ∀ {k : Nat} {c : TlsClient}, Keyed m key iv k c.writer →
    k + (bufs.flatMap (chunks 16384)).length < 2 ^ 64 → ∃ recs p tail, (writeMany m bufs c).2.writer.writer.wire = c.writer.writer.wire ++ (protectedRecords key iv 23 k recs ++ p) ∧ RecordCut p ∧
      recs.flatten = (bufs.take (writeMany m bufs c).1).flatten ++ tail ∧ (writeMany m bufs c).1 ≤ bufs.length ∧ recs.length ≤ (bufs.flatMap (chunks 16384)).length ∧ (∀ f ∈ recs, f.length ≤ 2 ^ 14) ∧
      match bufs[(writeMany m bufs c).1]? with
      | none => tail = []
      | some b => ∃ j, tail = b.take (16384 * j) := by
  induction bufs with
  | nil => intro k c _ _; exact ⟨[], [], [], by simp [writeMany, protectedRecords], cut_empty, rfl, Nat.le_refl _, Nat.zero_le _, by simp, rfl⟩
  | cons b bs ih =>
    intro k c hw hn
    rw [List.flatMap_cons, List.length_append] at hn
    rcases write_wire hk hi hw b (by omega) with ⟨c', h1, h2, h3⟩ | ⟨c', recs, p, j, h1, h2, h3, h4, h5, h6⟩
    · obtain ⟨recs, p, tail, g1, g2, g3, g4, g5, g6, g7⟩ := ih h2 (by omega)
      have e : writeMany m (b :: bs) c = ((writeMany m bs c').1 + 1, (writeMany m bs c').2) := by rw [writeMany, h1]
      rw [e]
      refine ⟨chunks 16384 b ++ recs, p, tail, ?_, g2, ?_, by rw [List.length_cons]; omega, by rw [List.flatMap_cons, List.length_append, List.length_append]; omega, ?_, ?_⟩
      · rw [protectedRecords_append, List.append_assoc, ← List.append_assoc c.writer.writer.wire, ← h3, g1]
      · rw [List.flatten_append, chunks_flatten (by decide), g3, List.take_succ_cons, List.flatten_cons, List.append_assoc]
      · intro f hf
        rcases List.mem_append.mp hf with hf | hf
        · exact chunks_length_le (by decide) b f hf
        · exact g6 f hf
      · rw [List.getElem?_cons_succ]; exact g7
    · have e : writeMany m (b :: bs) c = (0, c') := by rw [writeMany, h1]
      rw [e]
      exact ⟨recs, p, _, h2, h3, by rw [h4]; rfl, Nat.zero_le _, by rw [List.flatMap_cons, List.length_append]; omega, h6, j, rfl⟩

/-- Partial C119, for a program that stops at the first error: the peer gets the buffers of all calls that returned Ok, in their order, and of the buffer of the call that failed the beginning, in whole
records; nothing twice, nothing out of order. If no call failed, it gets everything. -/
theorem C119_stop_partial (m m' : Mode) (key iv : Bytes) (k n : Nat) (c c' : TlsClient) (bufs : List Bytes) (out data : Bytes) (peer s' : TlsReader) (e : Halt) (hk : key.length = 32)
    (hi : iv.length = 12) (hw : Keyed m key iv k c.writer) (hn : k + (bufs.flatMap (chunks 16384)).length < 2 ^ 64) (h : writeMany m bufs c = (n, c'))
    (ho : c'.writer.writer.wire = c.writer.writer.wire ++ out) (hp : Peer m' key iv k out peer) (hr : Room peer) (hA : Arrives peer data e s') :
    (n = bufs.length → data = bufs.flatten) ∧ ∀ b, bufs[n]? = some b → ∃ j, data = (bufs.take n).flatten ++ b.take (16384 * j) := by
  obtain ⟨recs, p, tail, g1, g2, g3, g4, g5, g6, g7⟩ := writeMany_wire hk hi bufs hw hn
  rw [h] at g1 g3 g4 g7
  have hout : out = protectedRecords key iv 23 k recs ++ p := List.append_cancel_left (ho.symm.trans g1)
  rw [hout] at hp
  obtain ⟨s2, hA2⟩ := arrives_records hk hi p g2 recs g6 hp (by omega)
  obtain ⟨rfl, -, -⟩ := hA.unique hA2 (Same.refl _) hr
  refine ⟨fun hlen => ?_, fun b hb => ?_⟩
  · rw [List.getElem?_eq_none (by show bufs.length ≤ n; omega)] at g7
    rw [g3, show tail = [] from g7, List.append_nil, List.take_of_length_le (by show bufs.length ≤ n; omega)]
  · simp only [hb] at g7
    obtain ⟨j, hj⟩ := g7
    exact ⟨j, by rw [g3, hj]⟩

/-- What the transport says in `C119_twice`: it takes the first record, then refuses one buffer, then takes everything. -/
def hiccup : List (Option Nat) := [none, none, none, none, none, some 0]

/-- C119 is false, for every buffer of more than one record: the call fails, and if the program makes it again, as `Write` allows, the peer gets the first 16384 bytes twice. -/
theorem C119_twice (m m' : Mode) (key iv : Bytes) (k : Nat) (c : TlsClient) (buf : Bytes) (hk : key.length = 32) (hi : iv.length = 12) (hw : Keyed m key iv k c.writer)
    (hf : c.writer.writer.faults = hiccup) (hb : 16384 < buf.length) (hn : k + 1 + (chunks 16384 buf).length < 2 ^ 64) :
    ∃ c1 c2 out1 out2, (TlsClient.write m buf).run c = (.err .IoFailure, c1) ∧ (TlsClient.write m buf).run c1 = (.ok buf.length, c2) ∧
      c1.writer.writer.wire = c.writer.writer.wire ++ out1 ∧ c2.writer.writer.wire = c.writer.writer.wire ++ out2 ∧ out1 = protectedRecord key iv k 23 (buf.take 16384) ∧
      ∀ peer, (Peer m' key iv k out1 peer → ∃ s', Arrives peer (buf.take 16384) (.failed .IoFailure) s') ∧
        (Peer m' key iv k out2 peer → ∃ s', Arrives peer (buf.take 16384 ++ buf) (.failed .IoFailure) s') := by
  have hne : buf ≠ [] := by rintro rfl; simp at hb
  have hne2 : buf.drop 16384 ≠ [] := by
    intro h
    have := congrArg List.length h
    simp at this
    omega
  obtain ⟨f2, rest, h2⟩ : ∃ f2 rest, chunks 16384 (buf.drop 16384) = f2 :: rest := ⟨_, _, chunks_of_ne_nil (by decide) hne2⟩
  have hcs : chunks 16384 buf = buf.take 16384 :: f2 :: rest := by rw [chunks_of_ne_nil (by decide) hne, h2]
  have hs1 : sendItems key iv k ((chunks 16384 buf).map fun f => (23, f)) c.writer.writer.faults = (protectedRecord key iv k 23 (buf.take 16384), false, k + 1, []) := by
    rw [hcs, hf]
    simp only [List.map_cons, sendItems, recordPieces, sendPieces, sendPiece, hiccup, List.take_zero, List.append_nil]
    rw [← recordPieces_flatten]
    simp [recordPieces]
  obtain ⟨w1, g1, k1, e1⟩ := write_keyed hk hi hw buf (by omega) hs1
  obtain ⟨c1, hc1⟩ : ∃ c1 : TlsClient, c1 = { c with writer := w1 } := ⟨_, rfl⟩
  have hw1 : c1.writer = w1 := by rw [hc1]
  have hs2 := sendItems_all key iv (chunks 16384 buf) (k + 1)
  obtain ⟨w2, g2, k2, e2⟩ := write_keyed (c := c1) hk hi (by rw [hw1]; exact k1) buf hn (by rw [hw1, e1]; exact hs2) (ok := true)
  have htl : (buf.take 16384).length ≤ 2 ^ 14 := by rw [List.length_take]; omega
  refine ⟨c1, _, _, protectedRecords key iv 23 k (buf.take 16384 :: chunks 16384 buf), by rw [hc1]; exact g1, g2, by rw [hw1, e1], ?_, rfl, fun peer => ⟨fun hp => ?_, fun hp => ?_⟩⟩
  · show w2.writer.wire = _
    rw [e2, hw1, e1, protectedRecords, List.append_assoc]
  · obtain ⟨s', h⟩ := arrives_records hk hi [] cut_empty [buf.take 16384] (fun g hg => by rw [List.mem_singleton.mp hg]; exact htl) (by simpa [protectedRecords] using hp)
      (by rw [List.length_singleton]; omega)
    exact ⟨s', by simpa using h⟩
  · obtain ⟨s', h⟩ := arrives_records hk hi [] cut_empty (buf.take 16384 :: chunks 16384 buf)
      (fun g hg => by rcases List.mem_cons.mp hg with rfl | hg; exacts [htl, chunks_length_le (by decide) buf g hg]) (by rw [List.append_nil]; exact hp) (by rw [List.length_cons]; omega)
    exact ⟨s', by rw [List.flatten_cons, chunks_flatten (by decide)] at h; exact h⟩

/-- A client with a key over such a transport, and its peer. -/
def stutter (key iv : Bytes) : TlsClient :=
  { reader := TlsReader.new ⟨[]⟩, writer := { writer := { faults := hiccup }, encryptor := some (.chacha .release key), iv := some iv, writeCount := 0 }, rng := ⟨[]⟩ }

theorem stutter_keyed (key iv : Bytes) : Keyed .release key iv 0 (stutter key iv).writer := ⟨rfl, rfl, rfl⟩

theorem C119_false : ¬ ErrorMeansNothing := by
  intro h
  have hk : (List.replicate 32 (0 : UInt8)).length = 32 := List.length_replicate
  have hi : (List.replicate 12 (0 : UInt8)).length = 12 := List.length_replicate
  generalize List.replicate 32 (0 : UInt8) = key at hk
  generalize List.replicate 12 (0 : UInt8) = iv at hi
  obtain ⟨buf, hb⟩ : ∃ buf : Bytes, buf.length = 16385 := ⟨List.replicate 16385 1, List.length_replicate⟩
  have hcount : (chunks 16384 buf).length = 2 := by rw [chunks_count (by decide), hb]
  obtain ⟨c1, c2, out1, out2, g1, -, g3, -, ho, g5⟩ := C119_twice .release .release key iv 0 (stutter key iv) buf hk hi (stutter_keyed key iv) rfl (by omega) (by omega)
  obtain ⟨peer, hpeer⟩ : ∃ peer : TlsReader, peer = { TlsReader.new (byteByByte out1) with decryptor := some (.chacha .release key), iv := some iv } := ⟨_, rfl⟩
  have hst : peer.reader.stream = ofBytes out1 := by rw [hpeer]; exact stream_byteByByte _
  have hP : Peer .release key iv 0 out1 peer := ⟨by rw [hpeer], by rw [hpeer], by rw [hpeer]; rfl, by rw [hpeer]; rfl, hst⟩
  obtain ⟨s', hA⟩ := (g5 peer).1 hP
  have hroom : Room peer := by
    rw [Room, hst, countBytes_ofBytes, hP.count, ho, protectedRecord_length, List.length_take]
    omega
  have := h .release .release key iv 0 _ c1 buf out1 _ _ peer s' _ hk hi (stutter_keyed key iv) (by omega) g1 g3 hP hroom hA
  have := congrArg List.length this
  rw [List.length_take, hb] at this
  simp at this

/-- The hypotheses of the partial theorems can be met: a transport that takes three bytes of the record of a short buffer. -/
example (key iv : Bytes) (hk : key.length = 32) (hi : iv.length = 12) : ∃ (c c' : TlsClient) (out : Bytes), Keyed .release key iv 0 c.writer ∧
    (TlsClient.write .release [1, 2]).run c = (.err .IoFailure, c') ∧ c'.writer.writer.wire = c.writer.writer.wire ++ out ∧ out = [23, 3, 3] := by
  have hc : chunks 16384 ([1, 2] : Bytes) = [[1, 2]] := chunks_small (by simp) (by decide)
  obtain ⟨w', h1, -, h3⟩ := write_keyed (c := { stutter key iv with writer := { (stutter key iv).writer with writer := { faults := [none, none, none, some 0] } } }) (k := 0) hk hi ⟨rfl, rfl, rfl⟩ [1, 2]
    (by rw [hc]; decide) (b := [23, 3, 3]) (ok := false) (k' := 0) (fs' := []) (by rw [hc]; simp [sendItems, recordPieces, sendPieces, sendPiece])
  exact ⟨_, _, _, ⟨rfl, rfl, rfl⟩, h1, by show w'.writer.wire = _; rw [h3], rfl⟩

end Husk
