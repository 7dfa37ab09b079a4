import Verif.Base.Res
/-!
Bytes and numbers: the mathematical reading of `from_le_bytes`, `to_le_bytes`, `byteorder`, `chunks`.
-/

namespace Husk

/-- Number denoted by a little-endian byte string. -/
def leNat : Bytes → Nat
  | [] => 0
  | b :: bs => b.toNat + 256 * leNat bs

/-- Number denoted by a big-endian byte string. -/
def beNat (bs : Bytes) : Nat := leNat bs.reverse

/-- The `k` low base-256 digits of `n`, least significant first. -/
def leBytes : Nat → Nat → Bytes
  | 0, _ => []
  | k + 1, n => UInt8.ofNat n :: leBytes k (n / 256)

/-- The `k` low base-256 digits of `n`, most significant first. -/
def beBytes (k n : Nat) : Bytes := (leBytes k n).reverse

@[simp] theorem leBytes_length (k n : Nat) : (leBytes k n).length = k := by
  induction k generalizing n with
  | zero => rfl
  | succ k ih => simp [leBytes, ih]

@[simp] theorem beBytes_length (k n : Nat) : (beBytes k n).length = k := by simp [beBytes]

theorem leNat_lt (bs : Bytes) : leNat bs < 256 ^ bs.length := by
  induction bs with
  | nil => simp [leNat]
  | cons b bs ih =>
    have hb : b.toNat < 256 := b.toNat_lt
    simp only [leNat, List.length_cons, Nat.pow_succ]
    omega

theorem beNat_lt (bs : Bytes) : beNat bs < 256 ^ bs.length := by
  have := leNat_lt bs.reverse
  simpa [beNat] using this

theorem leNat_leBytes (k n : Nat) : leNat (leBytes k n) = n % 256 ^ k := by
  induction k generalizing n with
  | zero => simp [leBytes, leNat, Nat.mod_one]
  | succ k ih =>
    simp only [leBytes, leNat, ih]
    rw [Nat.pow_succ, Nat.mul_comm (256 ^ k) 256, Nat.mod_mul]
    simp

theorem beNat_beBytes (k n : Nat) : beNat (beBytes k n) = n % 256 ^ k := by
  simp [beNat, beBytes, leNat_leBytes]

theorem leBytes_leNat (bs : Bytes) : leBytes bs.length (leNat bs) = bs := by
  induction bs with
  | nil => rfl
  | cons b bs ih =>
    have hb : b.toNat < 256 := b.toNat_lt
    simp only [List.length_cons, leBytes, leNat]
    have h1 : (b.toNat + 256 * leNat bs) / 256 = leNat bs := by omega
    rw [h1, ih]
    congr 1
    apply UInt8.toNat_inj.mp
    simp

theorem beBytes_beNat (bs : Bytes) : beBytes bs.length (beNat bs) = bs := by
  have := leBytes_leNat bs.reverse
  simp only [List.length_reverse] at this
  simp [beBytes, beNat, this]

theorem leNat_append (a b : Bytes) : leNat (a ++ b) = leNat a + 256 ^ a.length * leNat b := by
  induction a with
  | nil => simp [leNat]
  | cons x a ih =>
    simp only [List.cons_append, leNat, ih, List.length_cons, Nat.pow_succ, Nat.mul_add]
    rw [Nat.mul_comm (256 ^ a.length) 256, Nat.mul_assoc, Nat.add_assoc]

theorem leNat_inj {a b : Bytes} (hl : a.length = b.length) (h : leNat a = leNat b) : a = b := by
  rw [← leBytes_leNat a, ← leBytes_leNat b, hl, h]

theorem beNat_inj {a b : Bytes} (hl : a.length = b.length) (h : beNat a = beNat b) : a = b := by
  rw [← beBytes_beNat a, ← beBytes_beNat b, hl, h]

theorem getD_append_left {α : Type u} (a b : List α) (i : Nat) (d : α) (h : i < a.length) : (a ++ b).getD i d = a.getD i d := by
  simp [List.getD_eq_getElem?_getD, List.getElem?_append_left h]

theorem getD_append_right {α : Type u} (a b : List α) (i : Nat) (d : α) (h : a.length ≤ i) :
    (a ++ b).getD i d = b.getD (i - a.length) d := by
  simp [List.getD_eq_getElem?_getD, List.getElem?_append_right h]

/-- Loop of `chunks`; the first argument bounds the number of chunks. -/
def chunksAux (n : Nat) : Nat → List α → List (List α)
  | 0, _ => []
  | _ + 1, [] => []
  | f + 1, x :: xs => (x :: xs).take n :: chunksAux n f ((x :: xs).drop n)

/-- Rust `slice::chunks(n)` for `n > 0`. -/
def chunks (n : Nat) (l : List α) : List (List α) := chunksAux n l.length l

theorem chunksAux_fuel (n : Nat) (hn : 0 < n) (f g : Nat) (l : List α) (hf : l.length ≤ f)
    (hg : l.length ≤ g) : chunksAux n f l = chunksAux n g l := by
  induction f generalizing g l with
  | zero => cases l <;> cases g <;> simp_all [chunksAux]
  | succ f ih =>
    cases l with
    | nil => cases g <;> rfl
    | cons x xs =>
      cases g with
      | zero => simp at hg
      | succ g =>
        simp only [chunksAux]
        simp only [List.length_cons] at hf hg
        rw [ih g _ (by simp; omega) (by simp; omega)]

@[simp] theorem chunks_nil (n : Nat) : chunks n ([] : List α) = [] := rfl

theorem chunks_of_ne_nil {n : Nat} (hn : 0 < n) {l : List α} (hl : l ≠ []) :
    chunks n l = l.take n :: chunks n (l.drop n) := by
  cases l with
  | nil => exact absurd rfl hl
  | cons x xs =>
    unfold chunks
    simp only [List.length_cons, chunksAux]
    rw [chunksAux_fuel n hn xs.length _ _ (by simp; omega) (Nat.le_refl _)]

/-- Induction along the chunks of a list. -/
theorem chunks_induction {n : Nat} (hn : 0 < n) {P : List α → Prop} (nil : P [])
    (step : ∀ l, l ≠ [] → P (l.drop n) → P l) : ∀ l, P l := by
  intro l
  generalize hk : l.length = k
  induction k using Nat.strongRecOn generalizing l with
  | _ k ih =>
    cases l with
    | nil => exact nil
    | cons x xs =>
      apply step _ (by simp)
      apply ih ((x :: xs).drop n).length _ _ rfl
      simp at hk ⊢
      omega

theorem chunks_flatten {n : Nat} (hn : 0 < n) (l : List α) : (chunks n l).flatten = l := by
  induction l using chunks_induction hn with
  | nil => rfl
  | step l hl ih => rw [chunks_of_ne_nil hn hl, List.flatten_cons, ih, List.take_append_drop]

theorem chunks_length_le {n : Nat} (hn : 0 < n) (l : List α) : ∀ c ∈ chunks n l, c.length ≤ n := by
  induction l using chunks_induction hn with
  | nil => simp
  | step l hl ih =>
    rw [chunks_of_ne_nil hn hl]
    intro c hc
    rcases List.mem_cons.mp hc with rfl | hc
    · simp; omega
    · exact ih c hc

theorem chunks_ne_nil {n : Nat} (hn : 0 < n) (l : List α) : ∀ c ∈ chunks n l, c ≠ [] := by
  induction l using chunks_induction hn with
  | nil => simp
  | step l hl ih =>
    rw [chunks_of_ne_nil hn hl]
    intro c hc
    rcases List.mem_cons.mp hc with rfl | hc
    · intro h
      rcases List.take_eq_nil_iff.mp h with h | h
      · omega
      · exact hl h
    · exact ih c hc

theorem chunks_count {n : Nat} (hn : 0 < n) (l : List α) :
    (chunks n l).length = (l.length + n - 1) / n := by
  induction l using chunks_induction hn with
  | nil => simp only [chunks_nil, List.length_nil]; exact (Nat.div_eq_of_lt (by omega)).symm
  | step l hl ih =>
    rw [chunks_of_ne_nil hn hl, List.length_cons, ih]
    have hpos : 0 < l.length := List.length_pos_iff.mpr hl
    simp only [List.length_drop]
    by_cases h : l.length ≤ n
    · have h1 : l.length - n = 0 := by omega
      rw [h1]
      have h2 : (0 + n - 1) / n = 0 := Nat.div_eq_of_lt (by omega)
      have h3 : (l.length + n - 1) / n = 1 := by
        apply Nat.div_eq_of_lt_le <;> omega
      omega
    · have h1 : l.length + n - 1 = (l.length - n + n - 1) + n := by omega
      rw [h1, Nat.add_div_right _ hn]

/-- A list whose length is a multiple of `n` splits into chunks of length exactly `n`. -/
theorem chunks_length_eq {n : Nat} (hn : 0 < n) (l : List α) (h : n ∣ l.length) :
    ∀ c ∈ chunks n l, c.length = n := by
  induction l using chunks_induction hn with
  | nil => simp
  | step l hl ih =>
    rw [chunks_of_ne_nil hn hl]
    have hpos : 0 < l.length := List.length_pos_iff.mpr hl
    have hle : n ≤ l.length := Nat.le_of_dvd hpos h
    intro c hc
    rcases List.mem_cons.mp hc with rfl | hc
    · simp; omega
    · exact ih (by simpa using Nat.dvd_sub h (Nat.dvd_refl n)) c hc

end Husk
