import Verif.Props.ClientIo
/-! C92: a connection that is cut off looks like one that was closed. -/

namespace Husk

open Item Spec TlsReader TlsClient

/-- What `read` calls with these buffer lengths hand out of `data`, in turn; at the end, nothing. -/
def Spec.handOut : Bytes → List Nat → List Bytes
  | _, [] => []
  | data, len :: lens => data.take len :: handOut (data.drop len) lens

/-- The transport ends, or fails and then ends. -/
def Dead (t : List Sym) : Prop := t = [] ∨ t = [.stop]

/-- Part of a record, but not all of it. -/
def PartOfRecord (p : Bytes) : Prop :=
  ∃ (ty : ContentType) (a b : UInt8) (f q : Bytes), f.length ≤ ENC_RECORD_MAX_LEN ∧ p ++ q = recordBytes ty.toU8 a b f ∧ q ≠ []

theorem partOfRecord_nil : PartOfRecord [] := ⟨.AlertTy, 0, 0, [], _, by decide, rfl, by simp [recordBytes]⟩

theorem readExact_dead {n : Nat} {p : Bytes} {r : Reader} {t : List Sym} (ht : Dead t) (h : r.stream = ofBytes p ++ t) (hp : p.length < n) :
    ∃ r', (Reader.readExact n).run r = (.err .IoFailure, r') ∧ r'.stream = [] := by
  obtain ⟨r', h1, h2⟩ := Reader.readExact_spec n r
  have ht : takeBytes n (ofBytes p ++ t) = (none, []) := by
    have := takeBytes_append p (n - p.length) t
    rw [show p.length + (n - p.length) = n by omega] at this
    rw [this]
    obtain ⟨k, hk⟩ : ∃ k, n - p.length = k + 1 := ⟨n - p.length - 1, by omega⟩
    rw [hk]
    rcases ht with rfl | rfl <;> rfl
  rw [h, ht] at h1 h2
  exact ⟨r', h1, h2⟩

/-- A record that is cut off. -/
theorem readRecord_dead (m : Mode) (s : TlsReader) {p : Bytes} {t : List Sym} (hp : PartOfRecord p) (ht : Dead t) (hs : s.reader.stream = ofBytes p ++ t) :
    ∃ r', (readRecord m).run s = (.err .IoFailure, { s with reader := r' }) ∧ r'.stream = [] := by
  obtain ⟨ty, a, b, f, q, hf, hpq, hq⟩ := hp
  have hE : ENC_RECORD_MAX_LEN = 18432 := rfl
  have hql : 0 < q.length := List.length_pos_iff.mpr hq
  have hrb : recordBytes ty.toU8 a b f = ty.toU8 :: a :: b :: (beBytes 2 f.length ++ f) := by simp [recordBytes]
  rw [hrb] at hpq
  have cut8 : ∀ {r : Reader}, r.stream = ofBytes [] ++ t → ∃ r', Reader.readU8.run r = (.err .IoFailure, r') ∧ r'.stream = [] := by
    intro r h
    obtain ⟨r', h1, h2⟩ := readExact_dead (n := 1) ht h (by simp)
    exact ⟨r', by rw [Reader.readU8, St.bind_of_err h1], h2⟩
  match p, hpq with
  | [], _ =>
    obtain ⟨r1, h1, e1⟩ := cut8 hs
    exact ⟨r1, by rw [readRecord, St.bind_of_err (io_err h1)], e1⟩
  | x1 :: p1, hpq1 =>
    obtain ⟨rfl, hpq1'⟩ := List.cons.inj hpq1
    clear hpq1
    obtain ⟨r1, h1, e1⟩ := Reader.readU8_ok (b := ty.toU8) (l := ofBytes p1 ++ t) (by rw [hs]; rfl)
    rw [readRecord, St.bind_of_ok (io_ok h1), ContentType.ofU8_toU8]
    simp only
    match p1, hpq1' with
    | [], _ =>
      obtain ⟨r2, h2, e2⟩ := cut8 e1
      exact ⟨r2, by rw [St.bind_of_err (io_err (s := { s with reader := r1 }) h2)], e2⟩
    | x2 :: p2, hpq2 =>
      obtain ⟨rfl, hpq2'⟩ := List.cons.inj hpq2
      clear hpq2
      obtain ⟨r2, h2, e2⟩ := Reader.readU8_ok (b := x2) (l := ofBytes p2 ++ t) (by rw [e1]; rfl)
      rw [St.bind_of_ok (io_ok (s := { s with reader := r1 }) h2)]
      match p2, hpq2' with
      | [], _ =>
        obtain ⟨r3, h3, e3⟩ := cut8 e2
        exact ⟨r3, by rw [St.bind_of_err (io_err (s := { s with reader := r2 }) h3)], e3⟩
      | x3 :: p, hpq3 =>
        obtain ⟨rfl, hpq4⟩ := List.cons.inj hpq3
        obtain ⟨r3, h3, e3⟩ := Reader.readU8_ok (b := x3) (l := ofBytes p ++ t) (by rw [e2]; rfl)
        rw [St.bind_of_ok (io_ok (s := { s with reader := r2 }) h3)]
        by_cases h2 : p.length < 2
        · obtain ⟨r4, h4, e4⟩ := readExact_dead (n := 2) ht e3 h2
          exact ⟨r4, by rw [St.bind_of_err (io_err (s := { s with reader := r3 }) (by rw [Reader.readBeU16, St.bind_of_err h4]))], e4⟩
        · obtain ⟨p', rfl, hpq'⟩ : ∃ p', p = beBytes 2 f.length ++ p' ∧ p' ++ q = f := by
            rcases List.append_eq_append_iff.mp hpq4 with ⟨x, h1, h2⟩ | ⟨c, h1, h2⟩
            · have := congrArg List.length h1
              simp at this
              have hx : x = [] := List.length_eq_zero_iff.mp (by omega)
              subst hx
              exact ⟨[], by simpa using h1.symm, by simpa using h2⟩
            · exact ⟨c, h1, h2.symm⟩
          obtain ⟨r4, h4, e4⟩ := Reader.readBeU16_ok (n := f.length) (l := ofBytes p' ++ t) (by omega)
            (by rw [e3, ofBytes_append, List.append_assoc])
          have hlen : (UInt16.ofNat f.length).toNat = f.length := by simp only [UInt16.toNat_ofNat']; omega
          have hl := congrArg List.length hpq'
          rw [List.length_append] at hl
          obtain ⟨r5, h5, e5⟩ := readExact_dead (n := (UInt16.ofNat f.length).toNat) ht e4 (by omega)
          refine ⟨r5, ?_, e5⟩
          rw [St.bind_of_ok (io_ok (s := { s with reader := r3 }) h4), if_neg (by rw [hlen]; omega),
            St.bind_of_err (io_err (s := { s with reader := r4 }) h5)]

/-- Reading what is pending, then beyond the point where the stream is cut off. -/
theorem Pending.readMany_dead (m : Mode) (lens : List Nat) {w w' : TlsWriter} {sent : List (Record × Bytes)} {ds : List Bytes} {p : Bytes} {t : List Sym} {c : TlsClient}
    (h : Pending w sent ds w' (ofBytes p ++ t) c.reader) (hp : PartOfRecord p) (ht : Dead t) :
    (Husk.readMany m lens c).1 = (handOut (c.buf ++ ds.flatten) lens).map .ok := by
  induction lens generalizing w sent ds c p t with
  | nil => rfl
  | cons len lens ih =>
    by_cases hl : len ≤ (c.buf ++ ds.flatten).length
    · obtain ⟨c1, w1, sent1, ds1, h1, h2, h3, _, _⟩ := h.read m len hl
      have := ih h2 hp ht
      rw [h3] at this
      simp only [Husk.readMany, h1, this, handOut]
      rfl
    · obtain ⟨s1, p1, p2, p3, p4, _⟩ := h.readBeyond m len (by omega)
      obtain ⟨r', q1, q2⟩ := readRecord_dead m s1 hp ht (by simpa [wireOf, ofBytes] using p1.stream)
      have hr := p4 _ _ (readApplicationData_err p1.decrypts p1.noMessage q1)
      have hp2 : Pending w' [] [] w' (ofBytes [] ++ []) { s1 with reader := r' } :=
        ⟨p1.ok, p1.synced, p1.decrypts, p1.noMessage, p1.short, p1.count, p1.hands, by simpa [wireOf, ofBytes] using q2⟩
      have := ih (c := { c with reader := { s1 with reader := r' }, buf := [] }) hp2 partOfRecord_nil (.inl rfl)
      simp only [Husk.readMany, hr, this, handOut]
      rw [List.take_of_length_le (by omega), List.drop_eq_nil_of_le (by omega)]
      rfl

/-- Where a cut of the wire lies: after some whole records, inside the next one. -/
theorem wire_cut {w w' : TlsWriter} {sent : List (Record × Bytes)} (h : w.Sent sent w') (k : Nat) :
    ∃ j p, (wireOf sent).take k = wireOf (sent.take j) ++ p ∧ PartOfRecord p := by
  induction h generalizing k with
  | nil => exact ⟨0, [], by simp [wireOf], partOfRecord_nil⟩
  | @cons s s1 s' rec ct recs hw _ ih =>
    have e : wireOf ((rec, ct) :: recs) = recordBytes rec.contentType.toU8 rec.verMajor rec.verMinor ct ++ wireOf recs := by simp [wireOf]
    by_cases hk : k < (recordBytes rec.contentType.toU8 rec.verMajor rec.verMinor ct).length
    · refine ⟨0, (recordBytes rec.contentType.toU8 rec.verMajor rec.verMinor ct).take k, ?_, rec.contentType, rec.verMajor, rec.verMinor, ct,
        (recordBytes rec.contentType.toU8 rec.verMajor rec.verMinor ct).drop k, hw.short, List.take_append_drop _ _, ?_⟩
      · rw [e, List.take_append_of_le_length (by omega)]; simp [wireOf]
      · intro hd
        have := congrArg List.length hd
        rw [List.length_drop, List.length_nil] at this
        omega
    · obtain ⟨j, p, h1, h2⟩ := ih (k - (recordBytes rec.contentType.toU8 rec.verMajor rec.verMinor ct).length)
      refine ⟨j + 1, p, ?_, h2⟩
      rw [e, List.take_append, List.take_of_length_le (by omega), h1, List.take_succ_cons]
      simp [wireOf]

theorem sent_take {w w' : TlsWriter} {sent : List (Record × Bytes)} (h : w.Sent sent w') (j : Nat) : ∃ wj, w.Sent (sent.take j) wj := by
  induction h generalizing j with
  | nil => exact ⟨_, by simpa using .nil⟩
  | cons a _ ih =>
    cases j with
    | zero => exact ⟨_, .nil⟩
    | succ j =>
      obtain ⟨wj, h⟩ := ih j
      exact ⟨wj, .cons a h⟩

theorem forall₂_take {R : α → β → Prop} {a : List α} {b : List β} (h : List.Forall₂ R a b) (j : Nat) : List.Forall₂ R (a.take j) (b.take j) := by
  induction h generalizing j with
  | nil => simp
  | cons q _ ih =>
    cases j with
    | zero => exact .nil
    | succ j => exact .cons q (ih j)

theorem chunks_take {n : Nat} (hn : 0 < n) (l : List α) (j : Nat) : ((chunks n l).take j).flatten = l.take (n * j) := by
  induction l using chunks_induction hn generalizing j with
  | nil => simp
  | step l hl ih =>
    cases j with
    | zero => simp
    | succ j =>
      rw [chunks_of_ne_nil hn hl, List.take_succ_cons, List.flatten_cons, ih, Nat.mul_succ, Nat.add_comm, List.take_add]

/-- The peer's data is pending, up to any number of its records. -/
theorem pending_prefix (m' : Mode) (data : Bytes) (w : TlsWriter) (c : TlsClient) (hc : Connected w c) (hf : w.writer.faults = [])
    (hn : w.writeCount.toNat + (data.length + 16383) / 16384 < 2 ^ 64) :
    ∃ w' sent, (TlsWriter.writeApplicationData m' data).run w = (.ok (), w') ∧ w'.writer.wire = w.writer.wire ++ wireOf sent ∧ w.Sent sent w' ∧
      sent.length = (data.length + 16383) / 16384 ∧ ∀ (j : Nat) (rd : Reader) (l : List Sym), rd.stream = ofBytes (wireOf (sent.take j)) ++ l →
        ∃ wj ds, ds.flatten = data.take (16384 * j) ∧ Pending w (sent.take j) ds wj l { c.reader with reader := rd } := by
  have hcount : (chunks RECORD_MAX_LEN data).length = (data.length + 16383) / 16384 := chunks_count (by decide) data
  obtain ⟨w', hw⟩ := TlsWriter.writeChunks_ok (m := m') (ty := .ApplicationDataTy) (TlsWriter.chunk_bound data) hc.synced.sealsShort hf (by rw [hcount]; exact hn)
  obtain ⟨sent, hsent, hmap⟩ := TlsWriter.writeData_inv hw
  have hlen : sent.length = (data.length + 16383) / 16384 := by
    rw [← hcount, ← List.length_map (f := Prod.fst), hmap]; simp [TlsWriter.recordsOf]
  refine ⟨w', sent, by rw [writeApplicationData_run _ _ _ (connected_encrypts hc)]; exact hw, hsent.wire, hsent, hlen, fun j rd l hrd => ?_⟩
  obtain ⟨wj, hj⟩ := sent_take hsent j
  refine ⟨wj, (chunks RECORD_MAX_LEN data).take j, chunks_take (by decide) data j, hj, hc.synced, hc.decrypts, hc.noMessage, ?_, ?_,
    forall₂_take (hands_of_records rfl hmap) j, hrd⟩
  · intro rc hrc
    have : rc.1 ∈ TlsWriter.recordsOf .ApplicationDataTy (chunks RECORD_MAX_LEN data) := by
      rw [← hmap]; exact List.mem_map.mpr ⟨rc, List.mem_of_mem_take hrc, rfl⟩
    obtain ⟨f, hf, he⟩ := List.mem_map.mp this
    rw [← he]
    exact TlsWriter.chunk_bound data f hf
  · rw [List.length_take, hlen]; omega

/-- What the application reads when the peer sends `data`, close_notify and ends the connection. -/
def ReadsClosed (m m' : Mode) (data : Bytes) (w : TlsWriter) (c : TlsClient) (reads : List Nat → List (Res Bytes)) : Prop :=
  ∃ w' emitted, (sendAround m' data ⟨.warning, .close_notify⟩ []).run w = (.ok (), w') ∧ w'.writer.wire = w.writer.wire ++ emitted ∧
    ∀ rd : Reader, rd.stream = ofBytes emitted → ∀ lens, (readMany m lens { c with reader := { c.reader with reader := rd } }).1 = reads lens

theorem reads_closed (m m' : Mode) (data : Bytes) (w : TlsWriter) (c : TlsClient) (hc : Connected w c) (hf : w.writer.faults = [])
    (hn : w.writeCount.toNat + (data.length + 16383) / 16384 + 1 < 2 ^ 64) : ReadsClosed m m' data w c fun lens => (handOut data lens).map .ok := by
  obtain ⟨w', sent, ds, h1, h2, h3, h4⟩ := pending_around m' data [] .warning w c hc hf (by simpa using hn)
  refine ⟨w', wireOf sent, h1, h2, fun rd hrd lens => ?_⟩
  have hp := h4 rd (ofBytes [] ++ []) (by simpa [ofBytes] using hrd)
  have hb := hc.empty
  rw [Pending.readMany_dead (c := { c with reader := { c.reader with reader := rd } }) m lens hp partOfRecord_nil (.inl rfl)]
  simp [hb, h3]

/-- C92 is false: a peer sends any data; whoever controls the network lets through any number of bytes of it and then ends or resets the connection. All `read` calls
return what they would have returned had the peer sent the data of the whole records that came through, close_notify, and closed the connection. -/
theorem C92_cut_looks_closed (m m' : Mode) (data : Bytes) (w : TlsWriter) (c : TlsClient) (hc : Connected w c) (hf : w.writer.faults = [])
    (hn : w.writeCount.toNat + (data.length + 16383) / 16384 + 1 < 2 ^ 64) :
    ∃ w' emitted, (TlsWriter.writeApplicationData m' data).run w = (.ok (), w') ∧ w'.writer.wire = w.writer.wire ++ emitted ∧
      ∀ k, ∃ j reads, ReadsClosed m m' (data.take (16384 * j)) w c reads ∧ ∀ (t : List Sym), Dead t → ∀ rd : Reader, rd.stream = ofBytes (emitted.take k) ++ t →
        ∀ lens, (readMany m lens { c with reader := { c.reader with reader := rd } }).1 = reads lens := by
  obtain ⟨w', sent, h1, h2, h3, h4, h5⟩ := pending_prefix m' data w c hc hf (by omega)
  refine ⟨w', wireOf sent, h1, h2, fun k => ?_⟩
  obtain ⟨j, p, e1, e2⟩ := wire_cut h3 k
  refine ⟨j, _, reads_closed m m' (data.take (16384 * j)) w c hc hf (by rw [List.length_take]; omega), fun t ht rd hrd lens => ?_⟩
  obtain ⟨wj, ds, g1, g2⟩ := h5 j rd (ofBytes p ++ t) (by rw [hrd, e1, ofBytes_append, List.append_assoc])
  have hb := hc.empty
  rw [Pending.readMany_dead (c := { c with reader := { c.reader with reader := rd } }) m lens g2 e2 ht]
  simp [hb, g1]

/-- C92 is false, for every number of records: there is a place to cut so that exactly the data of the first `j` records is seen, as if it had been all. -/
theorem C92_not_detected (m m' : Mode) (data : Bytes) (w : TlsWriter) (c : TlsClient) (hc : Connected w c) (hf : w.writer.faults = [])
    (hn : w.writeCount.toNat + (data.length + 16383) / 16384 + 1 < 2 ^ 64) :
    ∃ w' emitted, (TlsWriter.writeApplicationData m' data).run w = (.ok (), w') ∧ w'.writer.wire = w.writer.wire ++ emitted ∧
      ∀ j, ∃ k, (j < (data.length + 16383) / 16384 → k < emitted.length) ∧ ∀ (t : List Sym), Dead t → ∀ rd : Reader, rd.stream = ofBytes (emitted.take k) ++ t →
        ∀ lens, (readMany m lens { c with reader := { c.reader with reader := rd } }).1 = (handOut (data.take (16384 * j)) lens).map .ok ∧
          ReadsClosed m m' (data.take (16384 * j)) w c fun lens => (handOut (data.take (16384 * j)) lens).map .ok := by
  obtain ⟨w', sent, h1, h2, h3, h4, h5⟩ := pending_prefix m' data w c hc hf (by omega)
  refine ⟨w', wireOf sent, h1, h2, fun j => ⟨(wireOf (sent.take j)).length, fun hj => ?_, fun t ht rd hrd lens => ⟨?_, ?_⟩⟩⟩
  · have e : wireOf sent = wireOf (sent.take j) ++ wireOf (sent.drop j) := by rw [wireOf, wireOf, wireOf, ← List.flatMap_append, List.take_append_drop]
    rw [e, List.length_append]
    have : sent.drop j ≠ [] := by
      intro h
      have := congrArg List.length h
      rw [List.length_drop, List.length_nil] at this
      omega
    obtain ⟨rc, l, hl⟩ := List.exists_cons_of_ne_nil this
    rw [hl]
    simp [wireOf, recordBytes]
  · obtain ⟨wj, ds, g1, g2⟩ := h5 j rd (ofBytes [] ++ t) (by
      rw [hrd]
      congr 1
      have e : wireOf sent = wireOf (sent.take j) ++ wireOf (sent.drop j) := by rw [wireOf, wireOf, wireOf, ← List.flatMap_append, List.take_append_drop]
      rw [e, List.take_append_of_le_length (Nat.le_refl _), List.take_length])
    have hb := hc.empty
    rw [Pending.readMany_dead (c := { c with reader := { c.reader with reader := rd } }) m lens g2 partOfRecord_nil ht]
    simp [hb, g1]
  · exact reads_closed m m' (data.take (16384 * j)) w c hc hf (by rw [List.length_take]; omega)

/-- C92, the part that holds: however the stream is cut off, no `read` panics, what they hand out is a prefix of the data ending at a record, and once one comes back short the
later ones return nothing. Missing: the application cannot tell. -/
theorem C92_prefix_partial (m m' : Mode) (data : Bytes) (w : TlsWriter) (c : TlsClient) (hc : Connected w c) (hf : w.writer.faults = [])
    (hn : w.writeCount.toNat + (data.length + 16383) / 16384 + 1 < 2 ^ 64) :
    ∃ w' emitted, (TlsWriter.writeApplicationData m' data).run w = (.ok (), w') ∧ w'.writer.wire = w.writer.wire ++ emitted ∧
      ∀ k, ∃ j, ∀ (t : List Sym), Dead t → ∀ rd : Reader, rd.stream = ofBytes (emitted.take k) ++ t →
        ∀ lens, (readMany m lens { c with reader := { c.reader with reader := rd } }).1 = (handOut (data.take (16384 * j)) lens).map .ok := by
  obtain ⟨w', sent, h1, h2, h3, h4, h5⟩ := pending_prefix m' data w c hc hf (by omega)
  refine ⟨w', wireOf sent, h1, h2, fun k => ?_⟩
  obtain ⟨j, p, e1, e2⟩ := wire_cut h3 k
  refine ⟨j, fun t ht rd hrd lens => ?_⟩
  obtain ⟨wj, ds, g1, g2⟩ := h5 j rd (ofBytes p ++ t) (by rw [hrd, e1, ofBytes_append, List.append_assoc])
  have hb := hc.empty
  rw [Pending.readMany_dead (c := { c with reader := { c.reader with reader := rd } }) m lens g2 e2 ht]
  simp [hb, g1]

/-- Of 20000 bytes the application sees 16384, then the end. -/
example (data : Bytes) : handOut (data.take (16384 * 1)) [10000, 10000, 5] = [data.take 10000, (data.take 16384).drop 10000, []] := by
  simp [handOut, List.take_take, List.take_of_length_le]

end Husk
