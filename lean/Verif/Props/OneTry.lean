import Verif.Props.RandomPad
import Verif.Props.Reads
/-! C116: every record somebody puts into the stream is one try to forge one, and each try succeeds for at most one choice of the blocks in 2^92. -/

namespace Husk

open Item Spec TlsReader TlsClient Finset

/-! ### Specification -/

/-- What a reader takes from a stream next, and what is left: a whole record (type, two version bytes, fragment); or nothing, when there is a byte that is no record type, a header
that announces more than 2^14 + 2048 bytes, or the transport stops before the record is complete. -/
def nextRecord (l : List Sym) : Option (UInt8 × UInt8 × UInt8 × Bytes) × List Sym :=
  match takeBytes 1 l with
  | (none, l1) => (none, l1)
  | (some t, l1) =>
    if t.headD 0 ∈ [20, 21, 22, 23] then
      match takeBytes 4 l1 with
      | (none, l2) => (none, l2)
      | (some h, l2) =>
        if beNat (h.drop 2) ≤ 18432 then
          match takeBytes (beNat (h.drop 2)) l2 with
          | (none, l3) => (none, l3)
          | (some f, l3) => (some (t.headD 0, h.getD 0 0, h.getD 1 0, f), l3)
        else (none, l2)
    else (none, l1)

/-- A try: the number under which a record is read, and the record. -/
abbrev Try := Nat × UInt8 × UInt8 × UInt8 × Bytes

/-- The tries in a stream, `recs` being the records of the owner of the key: a record that is the owner's next one is taken and the next number is up; any other record that is long
enough for a tag is a try; it is gone and the number stays. (`n` bounds the steps.) -/
def triesFrom (recs : List Bytes) : (n k : Nat) → List Sym → List Try
  | 0, _, _ => []
  | n + 1, k, l =>
    match nextRecord l with
    | (none, l') => triesFrom recs n k l'
    | (some r, l') =>
      if recs[k]? = some (recordBytes r.1 r.2.1 r.2.2.1 r.2.2.2) then triesFrom recs n (k + 1) l'
      else if r.2.2.2.length < 16 then triesFrom recs n k l'
      else (k, r) :: triesFrom recs n k l'

/-- The tries in a whole stream. -/
def tries (recs : List Bytes) (l : List Sym) : List Try := triesFrom recs l.length 0 l

/-- The try succeeds: the record opens. -/
def Succeeds (F : Blocks) (iv : Bytes) (t : Try) : Prop :=
  ∃ p, F.openMsg (recordNonce iv t.1) (recordAad t.1 t.2.1 t.2.2.1 t.2.2.2.1 p.length) t.2.2.2.2 = some p

/-- The bytes seen, cut into records: each is 21 bytes longer than what was sealed in it. -/
def cutRecords : List (UInt8 × Bytes) → Bytes → List Bytes
  | [], _ => []
  | r :: rs, w => w.take (r.2.length + 21) :: cutRecords rs (w.drop (r.2.length + 21))

open Classical in
/-- The choices of the blocks under which the records come out as `w` and one of the tries in `l` succeeds. -/
noncomputable def luckyPads (n : Nat) (iv : Bytes) (items : List (UInt8 × Bytes)) (w : Bytes) (l : List Sym) : Finset (Pad n) :=
  (padsFor n iv items w).filter fun P => ∃ t ∈ tries (cutRecords items w) l, Succeeds (P.blocks iv) iv t

/-! ### Proofs: the next record -/

theorem takeBytes_at {n : Nat} {a : Bytes} (h : a.length = n) (l : List Sym) : takeBytes n (ofBytes a ++ l) = (some a, l) := by
  subst h; exact takeBytes_ofBytes a l

theorem takeBytes_stops {l l' : List Sym} {p : Bytes} {n : Nat} (h : StopsAfter l p l') (hn : p.length < n) : takeBytes n l = (none, l') := by
  obtain ⟨k, rfl⟩ : ∃ k, n = p.length + (k + 1) := ⟨n - p.length - 1, by omega⟩
  rcases h with ⟨rfl, rfl⟩ | rfl
  · have := takeBytes_append p (k + 1) []
    rw [List.append_nil] at this
    rw [this]; rfl
  · rw [takeBytes_append]; rfl

theorem StopsAfter.split {l l' : List Sym} {q p : Bytes} (h : StopsAfter l (q ++ p) l') : ∃ l1, l = ofBytes q ++ l1 ∧ StopsAfter l1 p l' := by
  rcases h with ⟨rfl, rfl⟩ | rfl
  · exact ⟨ofBytes p, by simp [ofBytes], Or.inl ⟨rfl, rfl⟩⟩
  · exact ⟨ofBytes p ++ Sym.stop :: l', by simp [ofBytes], Or.inr rfl⟩

theorem header_split (ty a b : UInt8) (n : Nat) (l : List Sym) : ofBytes ([ty, a, b] ++ beBytes 2 n) ++ l = ofBytes [ty] ++ (ofBytes ([a, b] ++ beBytes 2 n) ++ l) := by
  simp [ofBytes]

theorem nextRecord_header {ty a b : UInt8} {n : Nat} (hn : n < 2 ^ 16) (hty : ty ∈ [20, 21, 22, 23]) (l : List Sym) :
    nextRecord (ofBytes ([ty, a, b] ++ beBytes 2 n) ++ l) =
      if n ≤ 18432 then
        match takeBytes n l with
        | (none, l3) => (none, l3)
        | (some f, l3) => (some (ty, a, b, f), l3)
      else (none, l) := by
  have h1 : takeBytes 4 (ofBytes ([a, b] ++ beBytes 2 n) ++ l) = (some ([a, b] ++ beBytes 2 n), l) := takeBytes_at (by simp) l
  have h2 : beNat (([a, b] ++ beBytes 2 n).drop 2) = n := by
    show beNat (beBytes 2 n) = n
    rw [beNat_beBytes]
    exact Nat.mod_eq_of_lt hn
  rw [header_split, nextRecord, takeBytes_at (n := 1) (a := [ty]) rfl]
  dsimp only
  rw [if_pos (show [ty].headD 0 ∈ [20, 21, 22, 23] from hty), h1]
  simp only
  rw [h2]
  rfl

theorem nextRecord_whole {ty a b : UInt8} {f : Bytes} (hf : f.length ≤ 18432) (hty : ty ∈ [20, 21, 22, 23]) (l : List Sym) :
    nextRecord (ofBytes (recordBytes ty a b f) ++ l) = (some (ty, a, b, f), l) := by
  have : ofBytes (recordBytes ty a b f) ++ l = ofBytes ([ty, a, b] ++ beBytes 2 f.length) ++ (ofBytes f ++ l) := by simp [recordBytes, ofBytes]
  rw [this, nextRecord_header (by omega) hty, if_pos hf, takeBytes_ofBytes]

theorem nextRecord_type {n : UInt8} (hn : n ∉ [20, 21, 22, 23]) (l : List Sym) : nextRecord (ofBytes [n] ++ l) = (none, l) := by
  rw [nextRecord, takeBytes_at (n := 1) (a := [n]) rfl]
  dsimp only
  rw [if_neg (show [n].headD 0 ∉ [20, 21, 22, 23] from hn)]

theorem nextRecord_announced {ty a b : UInt8} {n : Nat} (hty : ty ∈ [20, 21, 22, 23]) (h1 : 18432 < n) (h2 : n < 2 ^ 16) (l : List Sym) :
    nextRecord (ofBytes ([ty, a, b] ++ beBytes 2 n) ++ l) = (none, l) := by
  rw [nextRecord_header h2 hty, if_neg (by omega)]

theorem nextRecord_stops {l l' : List Sym} {p : Bytes} (hc : RecordCut p) (h : StopsAfter l p l') : nextRecord l = (none, l') := by
  obtain ⟨h1, h2⟩ := hc
  cases p with
  | nil => rw [nextRecord, takeBytes_stops h (by simp)]
  | cons ty p =>
    have hty := h1 ty rfl
    obtain ⟨l1, rfl, hs⟩ := StopsAfter.split (q := [ty]) (p := p) h
    by_cases h4 : p.length < 4
    · rw [nextRecord, takeBytes_at (n := 1) (a := [ty]) rfl]
      dsimp only
      rw [if_pos (show [ty].headD 0 ∈ [20, 21, 22, 23] from hty), takeBytes_stops hs h4]
    · match p, hs, h2, h4 with
      | a :: b :: x :: y :: p, hs, h2, _ =>
        obtain ⟨l2, rfl, hs2⟩ := StopsAfter.split (q := [a, b, x, y]) (p := p) hs
        have hx : [x, y] = beBytes 2 (beNat [x, y]) := by
          have := beBytes_beNat [x, y]
          exact this.symm
        have hlt : beNat [x, y] < 2 ^ 16 := by
          have := beNat_lt [x, y]
          simpa using this
        rcases h2 with h2 | ⟨h2, h3⟩
        · simp at h2; omega
        · have e : ((ty :: a :: b :: x :: y :: p).drop 3).take 2 = [x, y] := rfl
          rw [e] at h2 h3
          have e2 : ofBytes [ty] ++ (ofBytes [a, b, x, y] ++ l2) = ofBytes ([ty, a, b] ++ beBytes 2 (beNat [x, y])) ++ l2 := by
            rw [← hx]; simp [ofBytes]
          rw [e2, nextRecord_header hlt hty, if_pos h2, takeBytes_stops hs2 (by simp at h3; omega)]
      | [], _, _, h4 => simp at h4
      | [_], _, _, h4 => simp at h4
      | [_, _], _, _, h4 => simp at h4
      | [_, _, _], _, _, h4 => simp at h4

theorem takeBytes_none_length {n : Nat} {l l' : List Sym} (h : takeBytes n l = (none, l')) : l'.length ≤ l.length - 1 ∧ countBytes l' ≤ countBytes l := by
  obtain ⟨bs, -, ⟨rfl, rfl⟩ | rfl⟩ := takeBytes_none h
  · simp [countBytes]
  · rw [countBytes_append]
    simp [countBytes, ofBytes]

theorem nextRecord_some {l l' : List Sym} {ty a b : UInt8} {f : Bytes} (h : nextRecord l = (some (ty, a, b, f), l')) :
    l = ofBytes (recordBytes ty a b f) ++ l' ∧ f.length ≤ 18432 := by
  unfold nextRecord at h
  rcases e1 : takeBytes 1 l with ⟨_ | t, l1⟩
  · rw [e1] at h; cases h
  rw [e1] at h
  simp only at h
  split at h
  · rcases e2 : takeBytes 4 l1 with ⟨_ | hd, l2⟩
    · rw [e2] at h; cases h
    rw [e2] at h
    simp only at h
    split at h
    · rename_i hle
      rcases e3 : takeBytes (beNat (hd.drop 2)) l2 with ⟨_ | f', l3⟩
      · rw [e3] at h; cases h
      rw [e3] at h
      simp only [Prod.mk.injEq, Option.some.injEq] at h
      obtain ⟨⟨rfl, rfl, rfl, rfl⟩, rfl⟩ := h
      have k1 := takeBytes_length e1
      have k2 := takeBytes_length e2
      have k3 := takeBytes_length e3
      rw [takeBytes_some e1, takeBytes_some e2, takeBytes_some e3]
      match t, k1, hd, k2 with
      | [ty], _, [a, b, x, y], _ =>
        refine ⟨?_, by omega⟩
        have hx : beBytes 2 f'.length = [x, y] := by
          rw [k3]
          exact beBytes_beNat [x, y]
        simp [recordBytes, hx, ofBytes]
    · cases h
  · cases h

theorem nextRecord_none {l l' : List Sym} (h : nextRecord l = (none, l')) : l'.length ≤ l.length - 1 ∧ countBytes l' ≤ countBytes l := by
  unfold nextRecord at h
  rcases e1 : takeBytes 1 l with ⟨_ | t, l1⟩
  · rw [e1] at h
    cases h
    exact takeBytes_none_length e1
  rw [e1] at h
  simp only at h
  have k1 := takeBytes_length e1
  have s1 := takeBytes_some e1
  have c1 : l.length = l1.length + 1 ∧ countBytes l = countBytes l1 + 1 := by
    rw [s1, countBytes_append, countBytes_ofBytes, List.length_append, k1]
    simp [ofBytes, k1]
    omega
  split at h
  · rcases e2 : takeBytes 4 l1 with ⟨_ | hd, l2⟩
    · rw [e2] at h
      cases h
      have := takeBytes_none_length e2
      omega
    rw [e2] at h
    simp only at h
    have s2 := takeBytes_some e2
    have c2 : l2.length ≤ l1.length ∧ countBytes l2 ≤ countBytes l1 := by
      rw [s2, countBytes_append, List.length_append]
      omega
    split at h
    · rcases e3 : takeBytes (beNat (hd.drop 2)) l2 with ⟨_ | f', l3⟩
      · rw [e3] at h
        cases h
        have := takeBytes_none_length e3
        omega
      · rw [e3] at h; cases h
    · cases h; omega
  · cases h; omega

/-! ### Proofs: the tries -/

theorem triesFrom_count (recs : List Bytes) (n k : Nat) (l : List Sym) : 21 * (triesFrom recs n k l).length ≤ countBytes l := by
  induction n generalizing k l with
  | zero => simp [triesFrom]
  | succ n ih =>
    rw [triesFrom]
    rcases e : nextRecord l with ⟨_ | ⟨ty, a, b, f⟩, l'⟩
    · exact (ih k l').trans (nextRecord_none e).2
    · obtain ⟨rfl, -⟩ := nextRecord_some e
      have hc : countBytes (ofBytes (recordBytes ty a b f) ++ l') = f.length + 5 + countBytes l' := by rw [countBytes_append, countBytes_ofBytes, recordBytes_length]
      rw [hc]
      dsimp only
      split
      · have := ih (k + 1) l'; omega
      · split
        · have := ih k l'; omega
        · rename_i hlen
          have := ih k l'
          rw [List.length_cons]
          omega

/-- A try has a number up to that of the owner's records, a length the reader takes, and is not the owner's record of its number. -/
theorem triesFrom_mem {recs : List Bytes} {n k : Nat} {l : List Sym} {t : Try} (hk : k ≤ recs.length) (h : t ∈ triesFrom recs n k l) :
    t.1 ≤ recs.length ∧ t.2.2.2.2.length ≤ 18432 ∧ recs[t.1]? ≠ some (recordBytes t.2.1 t.2.2.1 t.2.2.2.1 t.2.2.2.2) := by
  induction n generalizing k l with
  | zero => cases h
  | succ n ih =>
    rw [triesFrom] at h
    rcases e : nextRecord l with ⟨_ | ⟨ty, a, b, f⟩, l'⟩
    · rw [e] at h; exact ih hk h
    · rw [e] at h
      obtain ⟨-, hf⟩ := nextRecord_some e
      dsimp only at h
      split at h
      · rename_i hr
        have := (List.getElem?_eq_some_iff.mp hr).1
        exact ih (by omega) h
      · rename_i hr
        split at h
        · exact ih hk h
        · rcases List.mem_cons.mp h with rfl | h
          · exact ⟨hk, hf, hr⟩
          · exact ih hk h

theorem cutRecords_length (items : List (UInt8 × Bytes)) (w : Bytes) : (cutRecords items w).length = items.length := by
  induction items generalizing w with
  | nil => rfl
  | cons r rs ih => rw [cutRecords, List.length_cons, List.length_cons, ih]

/-- The owner's records are the pieces. -/
theorem cutRecords_get (F : Blocks) (iv : Bytes) (k : Nat) (items : List (UInt8 × Bytes)) (j : Nat) :
    (cutRecords items (F.records iv k items))[j]? = items[j]?.map fun r => F.record iv (k + j) r.1 r.2 := by
  induction items generalizing k j with
  | nil => rfl
  | cons r rs ih =>
    have h1 : (F.record iv k r.1 r.2 ++ F.records iv (k + 1) rs).take (r.2.length + 21) = F.record iv k r.1 r.2 := List.take_left' (Blocks.record_length ..)
    have h2 : (F.record iv k r.1 r.2 ++ F.records iv (k + 1) rs).drop (r.2.length + 21) = F.records iv (k + 1) rs := List.drop_left' (Blocks.record_length ..)
    rw [Blocks.records, cutRecords, h1, h2]
    cases j with
    | zero => rfl
    | succ j => rw [List.getElem?_cons_succ, List.getElem?_cons_succ, ih, Nat.add_assoc, Nat.add_comm 1 j]

/-! ### C116: the chance -/

theorem mem_luckyPads {n : Nat} {iv : Bytes} {items : List (UInt8 × Bytes)} {w : Bytes} {l : List Sym} {P : Pad n} :
    P ∈ luckyPads n iv items w l ↔ P ∈ padsFor n iv items w ∧ ∃ t ∈ tries (cutRecords items w) l, Succeeds (P.blocks iv) iv t := by
  classical
  rw [luckyPads, mem_filter]

/-- C116: somebody sees the records `w` of the owner of the key and makes a stream from them in any way. Of all choices of the blocks under which the records are `w`, at most a part
(number of tries in the stream) / 2^92 lets a try succeed. -/
theorem C116_tries (n : Nat) (hn : n ≤ 2 ^ 64) (iv : Bytes) (hi : iv.length = 12) (items : List (UInt8 × Bytes)) (hc : items.length < n) (hl : ∀ r ∈ items, r.2.length ≤ 2 ^ 14)
    (w : Bytes) (l : List Sym) :
    (luckyPads n iv items w l).card * 2 ^ 92 ≤ (tries (cutRecords items w) l).length * (padsFor n iv items w).card := by
  classical
  have main : ∀ ts : List Try, (∀ t ∈ ts, t ∈ tries (cutRecords items w) l) →
      ((padsFor n iv items w).filter fun P => ∃ t ∈ ts, Succeeds (P.blocks iv) iv t).card * 2 ^ 92 ≤ ts.length * (padsFor n iv items w).card := by
    intro ts
    induction ts with
    | nil => intro _; simp
    | cons t ts ih =>
      intro hts
      have ih := ih fun t' h => hts t' (List.mem_cons_of_mem _ h)
      obtain ⟨h1, h2, h3⟩ := triesFrom_mem (Nat.zero_le _) (hts t (List.mem_cons_self ..))
      rw [cutRecords_length] at h1
      have hone := forge_one hn hi hc.le hl w ⟨t.1, by omega⟩ t.2.1 t.2.2.1 t.2.2.2.1 t.2.2.2.2 h2
      have hsub : ((padsFor n iv items w).filter fun P => ∃ t' ∈ t :: ts, Succeeds (P.blocks iv) iv t') ⊆
          ((padsFor n iv items w).filter fun P => (∃ p, (P.blocks iv).openMsg (recordNonce iv t.1) (recordAad t.1 t.2.1 t.2.2.1 t.2.2.2.1 p.length) t.2.2.2.2 = some p) ∧
            ∀ r, items[t.1]? = some r → recordBytes t.2.1 t.2.2.1 t.2.2.2.1 t.2.2.2.2 ≠ (P.blocks iv).record iv t.1 r.1 r.2) ∪
          (padsFor n iv items w).filter fun P => ∃ t' ∈ ts, Succeeds (P.blocks iv) iv t' := by
        intro P hP
        obtain ⟨hPA, t', ht', hs⟩ := mem_filter.mp hP
        rw [mem_union, mem_filter, mem_filter]
        rcases List.mem_cons.mp ht' with rfl | ht'
        · refine Or.inl ⟨hPA, hs, fun r hr e => h3 ?_⟩
          rw [← mem_padsFor.mp hPA, cutRecords_get, hr, Nat.zero_add, e]
          rfl
        · exact Or.inr ⟨hPA, t', ht', hs⟩
      have := (card_le_card hsub).trans (card_union_le _ _)
      rw [List.length_cons, Nat.add_mul, Nat.one_mul]
      refine (Nat.mul_le_mul_right _ this).trans ?_
      rw [Nat.add_mul]
      have h4 := Nat.add_le_add hone ih
      rw [Nat.add_comm (ts.length * _)]
      exact h4
  exact main _ fun _ h => h

/-- A try needs at least 21 bytes of the stream. -/
theorem C116_count (recs : List Bytes) (l : List Sym) : 21 * (tries recs l).length ≤ countBytes l := triesFrom_count recs _ _ l

/-! ### Proofs: what a client takes from its stream -/

/-- `s'` is reached from `s` by going through the stream: records are taken (`recs`), others refused, and what is no record is passed over; nothing is left out. -/
inductive Walks : TlsReader → List Record → TlsReader → Prop
  | same {s s' : TlsReader} : s'.reader.stream = s.reader.stream → s'.decryptor = s.decryptor → s'.readCount = s.readCount → s'.iv = s.iv → Walks s [] s'
  | good {s s1 s' : TlsReader} {ty : ContentType} {a b : UInt8} {f : Bytes} {rec : Record} {recs : List Record} : f.length ≤ 18432 →
      s.reader.stream = ofBytes (recordBytes ty.toU8 a b f) ++ s1.reader.stream → s.unprotect ty a b f = .ok rec → s1.decryptor = s.decryptor → s1.readCount = s.readCount + 1 →
      s1.iv = s.iv → Walks s1 recs s' → Walks s (rec :: recs) s'
  | bad {s s1 s' : TlsReader} {k : TlsErrorKind} {recs : List Record} : BadRecord s k s1.reader.stream → s1.decryptor = s.decryptor → s1.readCount = s.readCount → s1.iv = s.iv →
      Walks s1 recs s' → Walks s recs s'

theorem badRecord_congr {s t : TlsReader} (e : s.reader.stream = t.reader.stream) (a : s.decryptor = t.decryptor) (b : s.readCount = t.readCount) (c : s.iv = t.iv) {k : TlsErrorKind}
    {l : List Sym} (h : BadRecord s k l) : BadRecord t k l := by
  cases h with
  | stops p _ h1 h2 => exact .stops p _ h1 (e ▸ h2)
  | type n _ h1 h2 => exact .type n _ h1 (e ▸ h2)
  | announced ty x y n _ h1 h2 h3 h4 => exact .announced ty x y n _ h1 h2 h3 (e ▸ h4)
  | refused ty x y f k _ h1 h2 h3 => exact .refused ty x y f k _ h1 (e ▸ h2) ((unprotect_congr a b c _ _ _ _) ▸ h3)

theorem Walks.left {s0 s s' : TlsReader} {recs : List Record} (e : s.reader.stream = s0.reader.stream) (a : s.decryptor = s0.decryptor) (b : s.readCount = s0.readCount) (c : s.iv = s0.iv)
    (h : Walks s recs s') : Walks s0 recs s' := by
  cases h with
  | same h0 h1 h2 h3 => exact .same (h0.trans e) (h1.trans a) (h2.trans b) (h3.trans c)
  | good hl hs h1 h2 h3 h4 h5 => exact .good hl (e ▸ hs) ((unprotect_congr a b c _ _ _ _) ▸ h1) (h2.trans a) (by rw [h3, b]) (h4.trans c) h5
  | bad h0 h1 h2 h3 h4 => exact .bad (badRecord_congr e a b c h0) (h1.trans a) (h2.trans b) (h3.trans c) h4

theorem Walks.trans {s s1 s' : TlsReader} {r1 r2 : List Record} (h1 : Walks s r1 s1) (h2 : Walks s1 r2 s') : Walks s (r1 ++ r2) s' := by
  induction h1 with
  | same e a b c => exact h2.left e a b c
  | good hl e a b c d _ ih => exact .good hl e a b c d (ih h2)
  | bad e a b c _ ih => exact .bad e a b c (ih h2)

theorem TlsReader.Took.walks {s s' : TlsReader} {recs : List Record} (h : Took s recs s') : Walks s recs s' := by
  induction h with
  | nil a b c d => exact .same a b c d
  | cons hl hs h1 h2 h3 h4 _ ih => exact .good hl hs h1 h2 h3 h4 ih

theorem Walks.kept {s s' : TlsReader} {recs : List Record} (h : Walks s recs s') : s'.decryptor = s.decryptor ∧ (Room s → Room s') := by
  induction h with
  | same a b c d => exact ⟨b, fun hr => by unfold Room at *; rw [a, c]; exact hr⟩
  | good hl hs _ h2 h3 _ _ ih =>
    refine ⟨ih.1.trans h2, fun hr => ih.2 ?_⟩
    unfold Room at *
    rw [hs, countBytes_append, countBytes_ofBytes, recordBytes_length] at hr
    rw [h3, UInt64.toNat_add]
    show (_ + 1) % 2 ^ 64 + _ + 1 < _
    omega
  | bad h0 h1 h2 _ _ ih =>
    refine ⟨ih.1.trans h1, fun hr => ih.2 ?_⟩
    have := badRecord_left h0
    unfold Room at *
    rw [h2]
    omega

/-- What a result of `read_message` carries. -/
def messageData : Res Message → Bytes
  | .ok msg => Message.app msg
  | _ => []

theorem Comes.walks {s s' : TlsReader} {x : Res Message} (h : Comes s x s') (hx : x.Returns) : ∃ recs, Walks s recs s' ∧ appOf recs = messageData x := by
  induction h with
  | whole _ _ _ hs => exact ⟨[], .same hs.1 hs.2.1 hs.2.2.1 hs.2.2.2.2, rfl⟩
  | bad _ _ _ hs => exact ⟨[], .same hs.1 hs.2.1 hs.2.2.1 hs.2.2.2.2, rfl⟩
  | @more s s1 s' r x _ ht hty _ _ _ ih =>
    obtain ⟨recs, h1, h2⟩ := ih hx
    refine ⟨[r] ++ recs, ht.walks.trans h1, ?_⟩
    rw [appOf_append, h2]
    simp [appOf, hty]
  | @message s s' r msg _ ht _ hm =>
    refine ⟨[r], ht.walks, ?_⟩
    cases hm with
    | change h1 => simp [appOf, h1, messageData, Message.app]
    | alert level desc h1 => simp [appOf, h1, messageData, Message.app]
    | data h1 => simp [appOf, h1, messageData, Message.app]
  | @noMessage s s' r _ ht _ hm =>
    refine ⟨[r], ht.walks, ?_⟩
    rcases hm with ⟨h1, -⟩ | ⟨h1, -⟩ | ⟨h1, -⟩ <;> simp [appOf, h1, messageData]
  | noRecord _ hb hl =>
    obtain ⟨a1, a2, a3, -, a5⟩ := hl
    exact ⟨[], .bad (a1 ▸ hb) a2 a3 a5 (.same rfl rfl rfl rfl), rfl⟩
  | overlong => exact absurd hx id

theorem readApplicationData_walks {m : Mode} {s s' : TlsReader} {x : Res Bytes} (h : (readApplicationData m).run s = (x, s')) (hx : x.Returns) (hr : Room s) (hd : HasDecryptor s) :
    ∃ recs, Walks s recs s' ∧ appOf recs = delivered x := by
  have hc := comes_total m s hd.sound hr
  rcases hm : (readMessage m).run s with ⟨y, s1⟩
  rw [hm] at hc
  dsimp only at hc
  have := readApplicationData_message hd.isSome hm
  rw [h] at this
  obtain ⟨rfl, rfl⟩ := Prod.mk.inj this
  have hy : y.Returns := by cases y <;> first | trivial | exact hx
  obtain ⟨recs, h1, h2⟩ := hc.walks hy
  refine ⟨recs, h1, h2.trans ?_⟩
  cases y with
  | ok msg =>
    rw [Res.bind_ok]
    cases msg with
    | AlertMessage a =>
      simp only [applicationData, messageData, Message.app]
      split <;> rfl
    | _ => rfl
  | _ => rfl

theorem readApp_walks (m : Mode) (n : Nat) (s : TlsReader) (hx : ∀ x ∈ (readApp m n s).1, x.Returns) (hr : Room s) (hd : HasDecryptor s) :
    ∃ recs, Walks s recs (readApp m n s).2 ∧ appOf recs = (readApp m n s).1.flatMap delivered := by
  induction n generalizing s with
  | zero => exact ⟨[], .same rfl rfl rfl rfl, rfl⟩
  | succ n ih =>
    rcases hrun : (readApplicationData m).run s with ⟨x, s1⟩
    simp only [readApp, hrun] at hx ⊢
    obtain ⟨r1, h1, h2⟩ := readApplicationData_walks hrun (hx x (List.mem_cons_self ..)) hr hd
    obtain ⟨r2, h3, h4⟩ := ih s1 (fun y hy => hx y (List.mem_cons_of_mem _ hy)) (h1.kept.2 hr) (hd.of_eq h1.kept.1)
    exact ⟨r1 ++ r2, h1.trans h3, by rw [appOf_append, h2, h4]; rfl⟩

theorem runCalls_returns (m : Mode) (calls : List Call) (c : TlsClient) (hret : ∀ r ∈ (runCalls m calls c).1, r.Returned) :
    ∃ n, (∀ x ∈ (readApp m n c.reader).1, x.Returns) ∧ (runCalls m calls c).2.reader = (readApp m n c.reader).2 ∧
      c.buf ++ (readApp m n c.reader).1.flatMap delivered = received (runCalls m calls c).1 ++ (runCalls m calls c).2.buf := by
  induction calls generalizing c with
  | nil => exact ⟨0, by simp [readApp], rfl, by simp [runCalls, received, readApp]⟩
  | cons call calls ih =>
    obtain ⟨k, g0, g1, g2⟩ := ih (call.run m c).2 (fun r hr => hret r (List.mem_cons_of_mem _ hr))
    have e1 : (runCalls m (call :: calls) c).2 = (runCalls m calls (call.run m c).2).2 := rfl
    have e2 : received (runCalls m (call :: calls) c).1 = received [(call.run m c).1] ++ received (runCalls m calls (call.run m c).2).1 := by
      simp [received, runCalls]
    cases hc : call.isRead with
    | false =>
      obtain ⟨f, h1, h2⟩ := Call.run_write m hc
      refine ⟨k, ?_, ?_, ?_⟩
      · rw [h2] at g0; exact g0
      · rw [e1, g1, h2]
      · rw [e1, e2, List.append_assoc, ← g2, h2]
        have : received [(f c.writer).1] = [] := by
          have := h1 c.writer
          cases hf : (f c.writer).1 with
          | read r => rw [hf] at this; cases this
          | _ => rfl
        simp only [this, List.nil_append]
    | true =>
      cases call with
      | read len =>
        have hr0 := hret _ (List.mem_cons_self ..)
        obtain ⟨n, x, c1, hr, hc1, hR, -⟩ := TlsClient.read_spec m len c
        have hrun : (Call.read len).run m c = (.read x, c1) := by simp only [Call.run, hr]
        have h1 : c1.reader = (readApp m n c.reader).2 := congrArg TlsClient.reader hc1
        rw [hrun] at g0 g1 g2 e1 e2
        change ((Call.read len).run m c).1.Returned at hr0
        rw [hrun] at hr0
        cases x with
        | ok out =>
          obtain ⟨h6, h5⟩ := hR
          have hall : ∀ x ∈ (readApp m n c.reader).1, x.Returns := by
            rcases h5 with ⟨-, h5⟩ | ⟨-, -, rs0, k, h4, h5⟩
            · intro x hx; obtain ⟨b, rfl⟩ := h5 x hx; trivial
            · intro x hx
              rw [h4] at hx
              rcases List.mem_append.mp hx with hx | hx
              · obtain ⟨b, rfl⟩ := h5 x hx; trivial
              · rw [List.mem_singleton.mp hx]; trivial
          refine ⟨n + k, ?_, ?_, ?_⟩
          · intro x hx
            rw [readApp_add, ← h1] at hx
            rcases List.mem_append.mp hx with hx | hx
            · exact hall x hx
            · exact g0 x hx
          · rw [e1, g1, readApp_add, h1]
          · rw [e1, e2, List.append_assoc, ← g2, readApp_add, h1]
            simp only [List.flatMap_append]
            rw [← List.append_assoc, h6, List.append_assoc]
            simp [received]
        | err k => exact absurd hR id
        | panic => exact absurd hr0 id
        | diverge => exact absurd hr0 id
      | _ => cases hc

/-! ### Proofs: without a successful try only the owner's records are taken -/

/-- One record that opens: it is a successful try, or the owner's. -/
theorem opens_step {key iv : Bytes} {items : List (UInt8 × Bytes)} {n k : Nat} {l l' : List Sym} {ty a b : UInt8} {ct p : Bytes} (hn : l.length ≤ n)
    (hnext : nextRecord l = (some (ty, a, b, ct), l')) (ho : Spec.Aead.openMsg key (recordNonce iv k) (recordAad k ty a b p.length) ct = some p)
    (hno : ∀ t ∈ triesFrom (cutRecords items ((Blocks.ofKey key).records iv 0 items)) n k l, ¬ Succeeds (Blocks.ofKey key) iv t) :
    items[k]? = some (ty, p) ∧ ∀ t ∈ triesFrom (cutRecords items ((Blocks.ofKey key).records iv 0 items)) (n - 1) (k + 1) l', ¬ Succeeds (Blocks.ofKey key) iv t := by
  obtain ⟨rfl, -⟩ := nextRecord_some hnext
  cases n with
  | zero => rw [List.length_append] at hn; simp [ofBytes, recordBytes] at hn
  | succ n =>
    rw [triesFrom, hnext] at hno
    dsimp only at hno
    split at hno
    · rename_i hr
      rw [cutRecords_get, Nat.zero_add] at hr
      cases hi : items[k]? with
      | none => rw [hi] at hr; cases hr
      | some r =>
        rw [hi, Option.map_some, Option.some.injEq, Blocks.ofKey_record] at hr
        obtain ⟨rfl, rfl⟩ := opened_genuine ho hr.symm
        exact ⟨rfl, hno⟩
    · have hlen := openMsg_length ho
      rw [if_neg (by omega)] at hno
      exact absurd ⟨p, by rw [Blocks.ofKey_openMsg]; exact ho⟩ (hno _ (List.mem_cons_self ..))

/-- One record that does not open: it is not the owner's. -/
theorem refused_step {key iv : Bytes} {items : List (UInt8 × Bytes)} {n k : Nat} {l l' : List Sym} {ty a b : UInt8} {ct : Bytes} (hn : l.length ≤ n)
    (hnext : nextRecord l = (some (ty, a, b, ct), l')) (ho : Spec.Aead.openMsg key (recordNonce iv k) (recordAad k ty a b (ct.length - 16)) ct = none)
    (hno : ∀ t ∈ triesFrom (cutRecords items ((Blocks.ofKey key).records iv 0 items)) n k l, ¬ Succeeds (Blocks.ofKey key) iv t) :
    ∀ t ∈ triesFrom (cutRecords items ((Blocks.ofKey key).records iv 0 items)) (n - 1) k l', ¬ Succeeds (Blocks.ofKey key) iv t := by
  obtain ⟨rfl, -⟩ := nextRecord_some hnext
  cases n with
  | zero => rw [List.length_append] at hn; simp [ofBytes, recordBytes] at hn
  | succ n =>
    rw [triesFrom, hnext] at hno
    dsimp only at hno
    split at hno
    · rename_i hr
      exfalso
      rw [cutRecords_get, Nat.zero_add] at hr
      cases hi : items[k]? with
      | none => rw [hi] at hr; cases hr
      | some r =>
        rw [hi, Option.map_some, Option.some.injEq, Blocks.ofKey_record] at hr
        obtain ⟨rfl, rfl, rfl, rfl⟩ := recordBytes_inj hr
        rw [openMsg_length (openMsg_sealMsg _ _ _ _), Nat.add_sub_cancel, openMsg_sealMsg] at ho
        cases ho
    · split at hno
      · exact hno
      · exact fun t ht => hno t (List.mem_cons_of_mem _ ht)

theorem nothing_step {key iv : Bytes} {recs : List Bytes} {n k : Nat} {l l' : List Sym} (hn : l.length ≤ n) (hnext : nextRecord l = (none, l'))
    (hno : ∀ t ∈ triesFrom recs n k l, ¬ Succeeds (Blocks.ofKey key) iv t) :
    l'.length ≤ n - 1 ∧ ∀ t ∈ triesFrom recs (n - 1) k l', ¬ Succeeds (Blocks.ofKey key) iv t := by
  obtain ⟨h1, -⟩ := nextRecord_none hnext
  refine ⟨by omega, ?_⟩
  cases n with
  | zero => intro t ht; cases ht
  | succ n => rw [triesFrom, hnext] at hno; exact hno

theorem type_known (ty : ContentType) : ty.toU8 ∈ [20, 21, 22, 23] := by cases ty <;> decide

theorem drop_cons_prefix {α : Type} {items xs : List α} {k : Nat} {x : α} (h1 : items[k]? = some x) (h2 : xs <+: items.drop (k + 1)) : x :: xs <+: items.drop k := by
  obtain ⟨hlt, hget⟩ := List.getElem?_eq_some_iff.mp h1
  rw [List.drop_eq_getElem_cons hlt, hget]
  exact List.cons_prefix_cons.mpr ⟨rfl, h2⟩

theorem Walks.genuine {key iv : Bytes} (hk : key.length = 32) (hl : iv.length = 12) {items : List (UInt8 × Bytes)} {m : Mode} {s s' : TlsReader} {recs : List Record} (h : Walks s recs s')
    (hd : s.decryptor = some (.chacha m key)) (hi : s.iv = some iv) (hr : Room s) {n k : Nat} (hc : s.readCount.toNat = k) (hn : s.reader.stream.length ≤ n)
    (hno : ∀ t ∈ triesFrom (cutRecords items ((Blocks.ofKey key).records iv 0 items)) n k s.reader.stream, ¬ Succeeds (Blocks.ofKey key) iv t) :
    recs.map (fun r => (r.contentType.toU8, r.fragment)) <+: items.drop k := by
  induction h generalizing n k with
  | same => exact List.nil_prefix
  | @good s s1 s' ty a b f rec recs hf hs hu h1 h2 h3 _ ih =>
    obtain ⟨p, rfl, ho⟩ := unprotect_chacha hd hk hi hl hf hu
    rw [hc] at ho
    have hnext : nextRecord s.reader.stream = (some (ty.toU8, a, b, f), s1.reader.stream) := by rw [hs]; exact nextRecord_whole hf (type_known ty) _
    obtain ⟨g1, g2⟩ := opens_step hn hnext ho hno
    have hlen : s1.reader.stream.length ≤ n - 1 := by
      rw [hs, List.length_append, ofBytes, List.length_map, recordBytes_length] at hn
      omega
    have hcnt : s1.readCount.toNat = k + 1 := by
      unfold Room at hr
      rw [h2, UInt64.toNat_add, hc]
      show (k + 1) % 2 ^ 64 = _
      omega
    have hroom : Room s1 := by
      unfold Room at *
      rw [hs, countBytes_append, countBytes_ofBytes, recordBytes_length] at hr
      omega
    exact drop_cons_prefix g1 (ih (h1.trans hd) (h3.trans hi) hroom hcnt hlen g2)
  | @bad s s1 s' e recs h0 h1 h2 h3 _ ih =>
    have hroom : Room s1 := by
      have := badRecord_left h0
      unfold Room at *
      rw [h2]
      omega
    have none' : nextRecord s.reader.stream = (none, s1.reader.stream) → recs.map (fun r => (r.contentType.toU8, r.fragment)) <+: items.drop k := by
      intro hnext
      obtain ⟨g1, g2⟩ := nothing_step hn hnext hno
      exact ih (h1.trans hd) (h3.trans hi) hroom (by rw [h2, hc]) g1 g2
    generalize he : s1.reader.stream = l at h0 none'
    cases h0 with
    | stops p _ g1 g2 => exact none' (nextRecord_stops g1 g2)
    | type x _ g1 g2 => exact none' (by rw [g2]; exact nextRecord_type g1 _)
    | announced ty a b x _ g1 g2 g3 g4 => exact none' (by rw [g4]; exact nextRecord_announced g1 g2 g3 _)
    | refused ty a b f _ _ g1 g2 g3 =>
      obtain ⟨-, ho⟩ := refused_keyed g3 hd hk hi hl g1
      rw [hc] at ho
      have hnext : nextRecord s.reader.stream = (some (ty.toU8, a, b, f), s1.reader.stream) := by rw [g2, he]; exact nextRecord_whole g1 (type_known ty) _
      refine ih (h1.trans hd) (h3.trans hi) hroom (by rw [h2, hc]) (n := n - 1) ?_ (refused_step hn hnext ho hno)
      rw [g2, List.length_append, ofBytes, List.length_map, recordBytes_length] at hn
      rw [he]
      omega

/-- The records of the handshake. -/
theorem protected_genuine {key iv : Bytes} {items : List (UInt8 × Bytes)} {k : Nat} {prot : List (UInt8 × UInt8 × Bytes)} {w : Bytes} (h : ProtectedStream key iv 22 k prot w) {l : List Sym}
    {n : Nat} (hn : (ofBytes w ++ l).length ≤ n) (hk : k + prot.length < 2 ^ 64)
    (hno : ∀ t ∈ triesFrom (cutRecords items ((Blocks.ofKey key).records iv 0 items)) n k (ofBytes w ++ l), ¬ Succeeds (Blocks.ofKey key) iv t) :
    (∃ n', l.length ≤ n' ∧ ∀ t ∈ triesFrom (cutRecords items ((Blocks.ofKey key).records iv 0 items)) n' (k + prot.length) l, ¬ Succeeds (Blocks.ofKey key) iv t) ∧
      ∀ xs, xs <+: items.drop (k + prot.length) → prot.map (fun r => ((22 : UInt8), r.2.2)) ++ xs <+: items.drop k := by
  induction h generalizing n with
  | nil => exact ⟨⟨n, by simpa [ofBytes] using hn, by simpa [ofBytes] using hno⟩, fun xs hx => by simpa using hx⟩
  | @cons k a b p ct rest w h1 h2 h3 ih =>
    rw [List.length_cons] at hk ⊢
    rw [Nat.mod_eq_of_lt (by omega)] at h2
    rw [ofBytes_append, List.append_assoc] at hn hno
    have hnext := nextRecord_whole (ty := 22) (a := a) (b := b) h1 (by decide) (ofBytes w ++ l)
    obtain ⟨g1, g2⟩ := opens_step hn hnext h2 hno
    have hlen : (ofBytes w ++ l).length ≤ n - 1 := by
      rw [List.length_append, ofBytes, List.length_map, recordBytes_length] at hn
      omega
    obtain ⟨⟨n', e1, e2⟩, e3⟩ := ih hlen (by omega) g2
    have : k + (rest.length + 1) = k + 1 + rest.length := by omega
    rw [this]
    exact ⟨⟨n', e1, e2⟩, fun xs hx => drop_cons_prefix g1 (e3 xs hx)⟩

/-! ### C116: the session -/

/-- C116: after every successful handshake, whatever the network does. `l` is what the client received after the server's ChangeCipherSpec, and `items` everything that the other holder of
the session keys sealed under the server's key. In any history of calls the bytes handed out are an initial part of the application data among `items`, unless a try in `l` succeeds; and
of all choices of the blocks that give the same records as the key, at most a part (bytes of `l`) / (21 * 2^92) lets one succeed. -/
theorem C116_session (m : Mode) (rd : Reader) (wr : Writer) (rng : Rng) (hb : countBytes rd.stream < 2 ^ 64) (c : TlsClient) (h : TlsClient.new m rd wr rng = (.ok (), c)) (calls : List Call)
    (hret : ∀ r ∈ (runCalls m calls c).1, r.Returned) :
    ∃ S clear prot a b protWire pre post, Completed m rd wr rng c S clear prot a b protWire pre post ∧
      ∀ items, let w := (Blocks.ofKey S.keys.serverKey).records S.keys.serverIv 0 items; let l := ofBytes protWire ++ c.reader.reader.stream
        (received (runCalls m calls c).1 <+: appSealed items ∨ ∃ t ∈ tries (cutRecords items w) l, Succeeds (Blocks.ofKey S.keys.serverKey) S.keys.serverIv t) ∧
        ∀ n, items.length < n → n ≤ 2 ^ 64 → (∀ r ∈ items, r.2.length ≤ 2 ^ 14) →
          (luckyPads n S.keys.serverIv items w l).card * (21 * 2 ^ 92) ≤ countBytes l * (padsFor n S.keys.serverIv items w).card := by
  obtain ⟨S, clear, prot, a, b, protWire, pre, post, hC⟩ := C27_flight_partial m rd wr rng c h
  obtain ⟨k1, k2, k3, k4⟩ := hC.ready.lengths
  refine ⟨S, clear, prot, a, b, protWire, pre, post, hC, fun items => ⟨?_, fun n h1 h2 h3 => ?_⟩⟩
  · by_cases hT : ∃ t ∈ tries (cutRecords items ((Blocks.ofKey S.keys.serverKey).records S.keys.serverIv 0 items)) (ofBytes protWire ++ c.reader.reader.stream),
        Succeeds (Blocks.ofKey S.keys.serverKey) S.keys.serverIv t
    · exact Or.inr hT
    left
    have hno : ∀ t ∈ triesFrom (cutRecords items ((Blocks.ofKey S.keys.serverKey).records S.keys.serverIv 0 items)) (ofBytes protWire ++ c.reader.reader.stream).length 0
        (ofBytes protWire ++ c.reader.reader.stream), ¬ Succeeds (Blocks.ofKey S.keys.serverKey) S.keys.serverIv t := fun t ht hs => hT ⟨t, ht, hs⟩
    have hp : prot.length ≤ protWire.length := by
      have := hC.opened.opened (l := []) (rs := []) .nil
      have := this.count
      simp only [List.append_nil, countBytes_ofBytes, List.length_map] at this
      exact this
    have hcount := congrArg countBytes hC.stream
    rw [countBytes_append, countBytes_ofBytes, List.length_append, List.length_append, recordBytes_length] at hcount
    simp only [List.length_cons, List.length_nil] at hcount
    have hmod : c.reader.readCount.toNat = prot.length := by rw [hC.ready.readCount]; exact Nat.mod_eq_of_lt (by omega)
    have hroom : Room c.reader := by unfold Room; omega
    obtain ⟨n, hx, g1, g2⟩ := runCalls_returns m calls c hret
    obtain ⟨recs, a1, a2⟩ := readApp_walks m n c.reader hx hroom ⟨_, _, hC.ready.decryptor, k2⟩
    obtain ⟨⟨n', e1, e2⟩, e3⟩ := protected_genuine (items := items) hC.opened (l := c.reader.reader.stream) (le_refl _) (by omega) hno
    rw [Nat.zero_add] at e2 e3
    have hw := a1.genuine k2 k4 hC.ready.decryptor hC.ready.readerIv hroom hmod e1 e2
    have := e3 _ hw
    rw [List.drop_zero] at this
    refine List.IsPrefix.trans ?_ (appSealed_prefix this)
    have hs : appSealed (prot.map (fun r => ((22 : UInt8), r.2.2)) ++ recs.map fun r => (r.contentType.toU8, r.fragment)) = appOf recs := by
      have h1 : appSealed (prot.map fun r => ((22 : UInt8), r.2.2)) = [] := by simp [appSealed, List.flatMap_map]
      have h2 : ∀ recs : List Record, appSealed (recs.map fun r => (r.contentType.toU8, r.fragment)) = appOf recs := by
        intro recs
        induction recs with
        | nil => rfl
        | cons r recs ih =>
          rcases r with ⟨ty, x, y, f⟩
          have : appOf (⟨ty, x, y, f⟩ :: recs) = (if ty = .ApplicationDataTy then f else []) ++ appOf recs := by
            by_cases h : ty = .ApplicationDataTy <;> simp [appOf, h]
          rw [this, ← ih]
          show (if ty.toU8 = 23 then f else []) ++ _ = _
          congr 1
          cases ty <;> rfl
      have h3 : ∀ x y, appSealed (x ++ y) = appSealed x ++ appSealed y := fun x y => by simp [appSealed]
      rw [h3, h1, h2, List.nil_append]
    rw [hs, a2]
    rw [hC.ready.buf, List.nil_append] at g2
    rw [g2]
    exact List.prefix_append _ _
  · have hc := C116_count (cutRecords items ((Blocks.ofKey S.keys.serverKey).records S.keys.serverIv 0 items)) (ofBytes protWire ++ c.reader.reader.stream)
    have ht := C116_tries n h2 S.keys.serverIv k4 items h1 h3 ((Blocks.ofKey S.keys.serverKey).records S.keys.serverIv 0 items) (ofBytes protWire ++ c.reader.reader.stream)
    calc _ = 21 * ((luckyPads n S.keys.serverIv items _ _).card * 2 ^ 92) := by rw [← Nat.mul_assoc, Nat.mul_comm _ 21, Nat.mul_assoc]
      _ ≤ 21 * (_ * _) := Nat.mul_le_mul_left _ ht
      _ = 21 * _ * _ := (Nat.mul_assoc ..).symm
      _ ≤ _ := Nat.mul_le_mul_right _ hc

/-- A stream with one try, which succeeds for some choice of the blocks: the owner's record is taken and is no try; then comes a record nobody sealed. (The hypotheses of `C116_session` are
those of C69; the example there meets them.) -/
example (n : Nat) (h2 : 2 ≤ n) (hn : n ≤ 2 ^ 64) (iv : Bytes) (hi : iv.length = 12) : ∃ w l, (padsFor n iv [(23, [1, 2, 3])] w).Nonempty ∧
    (tries (cutRecords [(23, [1, 2, 3])] w) l).length = 1 ∧ (luckyPads n iv [(23, [1, 2, 3])] w l).Nonempty ∧
    (luckyPads n iv [(23, [1, 2, 3])] w l).card * 2 ^ 92 ≤ 1 * (padsFor n iv [(23, [1, 2, 3])] w).card := by
  obtain ⟨P⟩ : Nonempty (Pad n) := ⟨fun _ => 0⟩
  obtain ⟨F, hF⟩ : ∃ F, F = P.blocks iv := ⟨_, rfl⟩
  obtain ⟨w, hw⟩ : ∃ w, w = F.records iv 0 [(23, [1, 2, 3])] := ⟨_, rfl⟩
  obtain ⟨ct, hct⟩ : ∃ ct, ct = F.sealMsg (recordNonce iv 1) (recordAad 1 23 3 3 1) [7] := ⟨_, rfl⟩
  have hlen : ct.length = 17 := by rw [hct, Blocks.sealMsg_length]; rfl
  obtain ⟨l, hl⟩ : ∃ l, l = ofBytes (F.record iv 0 23 [1, 2, 3]) ++ (ofBytes (recordBytes 23 3 3 ct) ++ []) := ⟨_, rfl⟩
  have hll : l.length = 44 + 2 := by
    rw [hl, List.append_nil, List.length_append, ofBytes, ofBytes, List.length_map, List.length_map, Blocks.record_length, recordBytes_length, hlen]
    rfl
  have n1 : nextRecord l = (some (23, 3, 3, F.sealMsg (recordNonce iv 0) (recordAad 0 23 3 3 3) [1, 2, 3]), ofBytes (recordBytes 23 3 3 ct) ++ []) := by
    rw [hl]
    exact nextRecord_whole (by rw [Blocks.sealMsg_length]; decide) (by decide) _
  have n2 := nextRecord_whole (ty := 23) (a := 3) (b := 3) (f := ct) (by omega) (by decide) []
  have n3 : nextRecord [] = (none, []) := rfl
  have ht : tries (cutRecords [(23, [1, 2, 3])] w) l = [(1, 23, 3, 3, ct)] := by
    have g0 : (cutRecords [(23, [1, 2, 3])] w)[0]? = some (recordBytes 23 3 3 (F.sealMsg (recordNonce iv 0) (recordAad 0 23 3 3 3) [1, 2, 3])) := by
      rw [hw, cutRecords_get]; rfl
    have g1 : (cutRecords [(23, [1, 2, 3])] w)[1]? = none := by rw [hw, cutRecords_get]; rfl
    have g2 : ∀ k, triesFrom (cutRecords [(23, [1, 2, 3])] w) k 1 [] = [] := by
      intro k
      induction k with
      | zero => rfl
      | succ k ih => rw [triesFrom, n3]; exact ih
    rw [tries, hll, triesFrom, n1]
    dsimp only
    rw [if_pos g0, triesFrom, n2]
    dsimp only
    rw [Nat.zero_add, if_neg (by rw [g1]; simp), if_neg (by omega), g2]
  have hp : P ∈ padsFor n iv [(23, [1, 2, 3])] w := mem_padsFor.mpr (by rw [hw, hF])
  have hb := C116_tries n hn iv hi [(23, [1, 2, 3])] (by simp; omega) (by simp) w l
  rw [ht] at hb
  refine ⟨w, l, ⟨P, hp⟩, by rw [ht]; rfl, ⟨P, mem_luckyPads.mpr ⟨hp, _, by rw [ht]; exact List.mem_singleton.mpr rfl, [7], ?_⟩⟩, hb⟩
  rw [← hF]
  dsimp only
  rw [hct]
  exact Blocks.openMsg_sealMsg _ _ _ _

end Husk
