import Verif.Props.Truncation
/-! C95: `read_exact` and `read_to_end` on a `TlsClient`. -/

namespace Husk

open Item Spec TlsReader TlsClient

/-! ### Model

`TlsClient` implements only `read` (src/client.rs:318-349); the other methods of `std::io::Read` are std's defaults, loops around `read`. -/

namespace TlsClient

/-- The loop of std's default `read_exact`: `read` into what is left of the buffer until it is full; `Ok(0)` before that is `UnexpectedEof` (here `IoFailure`).
Every step fills at least one byte, so `fuel` is the length of the buffer. -/
def readExactLoop (m : Mode) : Nat → Nat → St TlsClient Bytes
  | _, 0 => pure []
  | 0, _ + 1 => ⟨fun c => (.diverge, c)⟩
  | fuel + 1, n + 1 => do
    let out ← TlsClient.read m (n + 1)
    if out = [] then St.err .IoFailure
    else do
      let rest ← readExactLoop m fuel (n + 1 - out.length)
      pure (out ++ rest)

/-- `client.read_exact(&mut buf)` with a buffer of `n` bytes. -/
def readExact (m : Mode) (n : Nat) : St TlsClient Bytes := readExactLoop m n n

/-- A run of std's default `read_to_end`: `read` into the spare room of the vector until `Ok(0)`. How much room std makes depends on the version and on the
capacity of the vector; here it is any positive number (`next + 1`), which may depend on what has been read. `acc` has been read before, `out` is what is in the
vector at the end. -/
inductive ReadsToEnd (m : Mode) (next : Bytes → Nat) : Bytes → TlsClient → Bytes → TlsClient → Prop
  | done {acc c c'} : (TlsClient.read m (next acc + 1)).run c = (.ok [], c') → ReadsToEnd m next acc c acc c'
  | more {acc c o c1 out c'} : (TlsClient.read m (next acc + 1)).run c = (.ok o, c1) → o ≠ [] → ReadsToEnd m next (acc ++ o) c1 out c' → ReadsToEnd m next acc c out c'

end TlsClient

/-! ### Specification -/

/-- All sequences of `read` calls hand out `data` in turn and then report its end. -/
def Serves (m : Mode) (c : TlsClient) (data : Bytes) : Prop := ∀ lens, (readMany m lens c).1 = (handOut data lens).map .ok

/-! ### Proofs -/

theorem Serves.read {m : Mode} {c : TlsClient} {data : Bytes} (h : Serves m c data) (len : Nat) :
    ∃ c', (TlsClient.read m len).run c = (.ok (data.take len), c') ∧ Serves m c' (data.drop len) := by
  obtain ⟨x, c', hx⟩ : ∃ x c', (TlsClient.read m len).run c = (x, c') := ⟨_, _, rfl⟩
  have h1 := h [len]
  obtain rfl : x = .ok (data.take len) := by
    cases x <;> simpa [readMany, hx, handOut] using h1
  refine ⟨c', hx, fun lens => ?_⟩
  have h2 := h (len :: lens)
  simp only [readMany, hx, handOut, List.map_cons, List.cons.injEq, true_and] at h2
  exact h2

theorem readExactLoop_holds (m : Mode) (fuel n : Nat) (hf : n ≤ fuel) {c : TlsClient} {data : Bytes} (h : Serves m c data) :
    ∃ c', (readExactLoop m fuel n).run c = (if n ≤ data.length then .ok (data.take n) else .err .IoFailure, c') ∧ Serves m c' (data.drop n) := by
  induction fuel generalizing n c data with
  | zero =>
    obtain rfl : n = 0 := by omega
    exact ⟨c, by simp only [readExactLoop]; rfl, by simpa using h⟩
  | succ fuel ih =>
    cases n with
    | zero => exact ⟨c, by simp only [readExactLoop]; rfl, by simpa using h⟩
    | succ n =>
      obtain ⟨c1, h1, h2⟩ := h.read (n + 1)
      rw [readExactLoop, St.bind_of_ok h1]
      by_cases h0 : data.take (n + 1) = []
      · have hd : data = [] := by simpa using h0
        subst hd
        exact ⟨c1, by simp; rfl, by simpa using h2⟩
      · rw [if_neg h0]
        have hpos : 0 < (data.take (n + 1)).length := List.length_pos_iff.mpr h0
        obtain ⟨c2, g1, g2⟩ := ih (n + 1 - (data.take (n + 1)).length) (by omega) h2
        have hdrop : (data.drop (n + 1)).drop (n + 1 - (data.take (n + 1)).length) = data.drop (n + 1) := by
          rw [List.length_take]
          by_cases hl : n + 1 ≤ data.length
          · rw [Nat.min_eq_left hl]; simp
          · rw [List.drop_eq_nil_of_le (by omega : data.length ≤ n + 1)]; simp
        rw [hdrop] at g2
        refine ⟨c2, ?_, g2⟩
        by_cases hl : n + 1 ≤ data.length
        · rw [if_pos (by rw [List.length_take]; omega)] at g1
          rw [St.bind_of_ok g1, if_pos hl]
          have e : n + 1 - (data.take (n + 1)).length = 0 := by rw [List.length_take]; omega
          rw [e, List.take_zero, List.append_nil]
          rfl
        · rw [if_neg (by rw [List.length_take, List.length_drop]; omega)] at g1
          rw [St.bind_of_err g1, if_neg hl]

theorem readsToEnd_holds (m : Mode) (next : Bytes → Nat) (acc : Bytes) {c : TlsClient} {data : Bytes} (h : Serves m c data) :
    ∃ c', ReadsToEnd m next acc c (acc ++ data) c' ∧ Serves m c' [] := by
  generalize hk : data.length = k
  induction k using Nat.strongRecOn generalizing acc c data with
  | _ k ih =>
    obtain ⟨c1, h1, h2⟩ := h.read (next acc + 1)
    by_cases h0 : data = []
    · subst h0
      exact ⟨c1, by simpa using ReadsToEnd.done (by simpa using h1), by simpa using h2⟩
    · have hpos : 0 < data.length := List.length_pos_iff.mpr h0
      obtain ⟨c', g1, g2⟩ := ih (data.drop (next acc + 1)).length (by rw [List.length_drop]; omega) (acc ++ data.take (next acc + 1)) h2 rfl
      rw [List.append_assoc, List.take_append_drop] at g1
      exact ⟨c', .more h1 (by simpa using h0) g1, g2⟩

theorem readsToEnd_unique {m : Mode} {next : Bytes → Nat} {acc out out' : Bytes} {c c' c'' : TlsClient} (h : ReadsToEnd m next acc c out c') (h' : ReadsToEnd m next acc c out' c'') :
    out = out' ∧ c' = c'' := by
  induction h with
  | done h1 =>
    cases h' with
    | done h2 => rw [h1] at h2; cases h2; exact ⟨rfl, rfl⟩
    | more h2 h3 _ => rw [h1] at h2; cases h2; exact absurd rfl h3
  | more h1 h3 _ ih =>
    cases h' with
    | done h2 => rw [h1] at h2; cases h2; exact absurd rfl h3
    | more h2 _ h4 => rw [h1] at h2; cases h2; exact ih h4

/-- `Serves` of what a connected peer sends around a close_notify, wherever and however the transport ends. -/
theorem holds_around (m m' : Mode) (d1 d2 : Bytes) (w : TlsWriter) (c : TlsClient) (hc : Connected w c) (hf : w.writer.faults = [])
    (hn : w.writeCount.toNat + (d1.length + 16383) / 16384 + 1 + (d2.length + 16383) / 16384 < 2 ^ 64) :
    ∃ w' emitted, (sendAround m' d1 ⟨.warning, .close_notify⟩ d2).run w = (.ok (), w') ∧ w'.writer.wire = w.writer.wire ++ emitted ∧
      ∀ (t : List Sym), Dead t → ∀ rd : Reader, rd.stream = ofBytes emitted ++ t → Serves m { c with reader := { c.reader with reader := rd } } (d1 ++ d2) := by
  obtain ⟨w', sent, ds, h1, h2, h3, h4⟩ := pending_around m' d1 d2 .warning w c hc hf hn
  refine ⟨w', wireOf sent, h1, h2, fun t ht rd hrd lens => ?_⟩
  have hp := h4 rd (ofBytes [] ++ t) (by simpa [ofBytes] using hrd)
  have hb := hc.empty
  rw [Pending.readMany_dead (c := { c with reader := { c.reader with reader := rd } }) m lens hp partOfRecord_nil ht]
  simp [hb, h3]

/-! ### C95 -/

/-- C95, `read_to_end`: a connected peer sends any data and close_notify and the connection ends. Whatever room std makes for each `read`, `read_to_end` ends and
the vector holds exactly the data; nothing is left. The suffix says what is missing: it ends because the connection ends, not because of close_notify. -/
theorem C95_read_to_end_partial (m m' : Mode) (data : Bytes) (w : TlsWriter) (c : TlsClient) (hc : Connected w c) (hf : w.writer.faults = [])
    (hn : w.writeCount.toNat + (data.length + 16383) / 16384 + 1 < 2 ^ 64) :
    ∃ w' emitted, (sendAround m' data ⟨.warning, .close_notify⟩ []).run w = (.ok (), w') ∧ w'.writer.wire = w.writer.wire ++ emitted ∧
      ∀ (t : List Sym), Dead t → ∀ rd : Reader, rd.stream = ofBytes emitted ++ t → ∀ next : Bytes → Nat,
        (∃ c', ReadsToEnd m next [] { c with reader := { c.reader with reader := rd } } data c' ∧ Serves m c' []) ∧
        ∀ out c', ReadsToEnd m next [] { c with reader := { c.reader with reader := rd } } out c' → out = data := by
  obtain ⟨w', emitted, h1, h2, h3⟩ := holds_around m m' data [] w c hc hf (by simpa using hn)
  refine ⟨w', emitted, h1, h2, fun t ht rd hrd next => ?_⟩
  have hh := h3 t ht rd hrd
  rw [List.append_nil] at hh
  obtain ⟨c', g1, g2⟩ := readsToEnd_holds m next [] hh
  exact ⟨⟨c', g1, g2⟩, fun out c'' h => (readsToEnd_unique h g1).1⟩

/-- C95, `read_exact`: after any sequence of `read` calls, `read_exact` with a buffer of `n` bytes returns the next `n` bytes of what the peer sent, or
`UnexpectedEof` if there are fewer before the end of the connection, for all ways to go on. -/
theorem C95_read_exact (m m' : Mode) (data : Bytes) (w : TlsWriter) (c : TlsClient) (hc : Connected w c) (hf : w.writer.faults = [])
    (hn : w.writeCount.toNat + (data.length + 16383) / 16384 + 1 < 2 ^ 64) :
    ∃ w' emitted, (sendAround m' data ⟨.warning, .close_notify⟩ []).run w = (.ok (), w') ∧ w'.writer.wire = w.writer.wire ++ emitted ∧
      ∀ (t : List Sym), Dead t → ∀ rd : Reader, rd.stream = ofBytes emitted ++ t → ∀ (lens : List Nat) (n : Nat),
        ∃ c', (TlsClient.readExact m n).run (readMany m lens { c with reader := { c.reader with reader := rd } }).2 =
            (if lens.sum + n ≤ data.length ∨ n = 0 then .ok ((data.drop lens.sum).take n) else .err .IoFailure, c') ∧
          Serves m c' (data.drop (lens.sum + n)) := by
  obtain ⟨w', emitted, h1, h2, h3⟩ := holds_around m m' data [] w c hc hf (by simpa using hn)
  refine ⟨w', emitted, h1, h2, fun t ht rd hrd lens n => ?_⟩
  have hh := h3 t ht rd hrd
  rw [List.append_nil] at hh
  have many : ∀ (lens : List Nat) (c : TlsClient) (data : Bytes), Serves m c data → Serves m (readMany m lens c).2 (data.drop lens.sum) := by
    intro lens
    induction lens with
    | nil => intro c data h; simpa [readMany] using h
    | cons len lens ih =>
      intro c data h
      obtain ⟨c1, g1, g2⟩ := h.read len
      have := ih c1 _ g2
      rw [List.drop_drop] at this
      simpa [readMany, g1] using this
  obtain ⟨c', g1, g2⟩ := readExactLoop_holds m n n (Nat.le_refl _) (many lens _ _ hh)
  rw [List.drop_drop] at g2
  refine ⟨c', ?_, g2⟩
  rw [TlsClient.readExact, g1]
  congr 1
  rw [List.length_drop]
  by_cases h0 : n = 0
  · simp [h0]
  · simp only [h0, or_false]
    by_cases hl : lens.sum + n ≤ data.length
    · rw [if_pos hl, if_pos (by omega)]
    · rw [if_neg hl, if_neg (by omega)]

/-- C95 is false: `read_to_end` does not end at close_notify. Whatever the peer sends after it is in the vector too, for all data and all sizes of `read` calls; so
`read_to_end` does not return before the transport ends. -/
theorem C95_past_close (m m' : Mode) (d1 d2 : Bytes) (w : TlsWriter) (c : TlsClient) (hc : Connected w c) (hf : w.writer.faults = [])
    (hn : w.writeCount.toNat + (d1.length + 16383) / 16384 + 1 + (d2.length + 16383) / 16384 < 2 ^ 64) :
    ∃ w' emitted, (sendAround m' d1 ⟨.warning, .close_notify⟩ d2).run w = (.ok (), w') ∧ w'.writer.wire = w.writer.wire ++ emitted ∧
      ∀ (t : List Sym), Dead t → ∀ rd : Reader, rd.stream = ofBytes emitted ++ t → ∀ next : Bytes → Nat,
        ∃ c', ReadsToEnd m next [] { c with reader := { c.reader with reader := rd } } (d1 ++ d2) c' := by
  obtain ⟨w', emitted, h1, h2, h3⟩ := holds_around m m' d1 d2 w c hc hf hn
  refine ⟨w', emitted, h1, h2, fun t ht rd hrd next => ?_⟩
  obtain ⟨c', g1, -⟩ := readsToEnd_holds m next [] (h3 t ht rd hrd)
  exact ⟨c', g1⟩

/-- Connected peers exist (example in `Props/ClientIo`); what `read_exact` and `read_to_end` return of three bytes. -/
example (m : Mode) (c : TlsClient) (h : Serves m c [1, 2, 3]) : ((TlsClient.readExact m 2).run c).1 = .ok [1, 2] ∧ ((TlsClient.readExact m 4).run c).1 = .err .IoFailure ∧
    ∃ c', ReadsToEnd m (fun _ => 1) [] c [1, 2, 3] c' := by
  obtain ⟨_, h1, -⟩ := readExactLoop_holds m 2 2 (Nat.le_refl _) h
  obtain ⟨_, h2, -⟩ := readExactLoop_holds m 4 4 (Nat.le_refl _) h
  obtain ⟨c', h3, -⟩ := readsToEnd_holds m (fun _ => 1) [] h
  exact ⟨by rw [TlsClient.readExact, h1]; rfl, by rw [TlsClient.readExact, h2]; rfl, c', h3⟩

end Husk
