import Verif.Proofs.TraceP256
/-! In release builds the observations of the field and point operations do not depend on the operands. -/

namespace Husk

open Tr Tr.Same

namespace Int256

/-- Lists of the same length. -/
abbrev SameLen {α β : Type} (a : List α) (b : List β) : Prop := a.length = b.length

theorem ofLimbs_same (v w : List UInt32) : Same Any (ofLimbs v) (ofLimbs w) := by
  intro a b ha hb
  unfold ofLimbs at *
  split at ha <;> split at hb
  · rename_i h h'
    rw [dif_pos h, dif_pos h']
    exact ⟨rfl, trivial⟩
  · cases hb
  · cases ha
  · cases ha

theorem diffLimbsT_same (i : Nat) (a b a' b' : List UInt32) (d d' : UInt32) (h : SameLen a a') (h' : SameLen b b') :
    Same Any (diffLimbsT i a b d) (diffLimbsT i a' b' d') := by
  induction a generalizing i b a' b' d d' with
  | nil =>
    cases a' with
    | nil => cases b <;> cases b' <;> exact Same.bind (Same.see _) fun _ _ _ => Same.pure trivial
    | cons => simp [SameLen] at h
  | cons x a ih =>
    cases a' with
    | nil => simp [SameLen] at h
    | cons x' a' =>
      cases b with
      | nil =>
        cases b' with
        | nil => exact Same.bind (Same.see _) fun _ _ _ => Same.pure trivial
        | cons => simp [SameLen] at h'
      | cons y b =>
        cases b' with
        | nil => simp [SameLen] at h'
        | cons y' b' =>
          exact Same.bind (Same.see _) fun _ _ _ => Same.bind (Same.see _) fun _ _ _ => Same.bind (Same.see _) fun _ _ _ =>
            ih _ _ _ _ _ _ (Nat.succ.inj h) (Nat.succ.inj h')

theorem lens (a b : Int256) : SameLen a.v b.v := a.len.trans b.len.symm

theorem compareT_same (a b a' b' : Int256) : Same Any (a.compareT b) (a'.compareT b') :=
  Same.bind (diffLimbsT_same _ _ _ _ _ _ _ (lens _ _) (lens _ _)) fun _ _ _ => Same.pure trivial

theorem chooseLimbsT_same (f f' : UInt32) (i : Nat) (a b a' b' : List UInt32) (h : SameLen a a') (h' : SameLen b b') :
    Same Any (chooseLimbsT f i a b) (chooseLimbsT f' i a' b') := by
  induction a generalizing i b a' b' with
  | nil =>
    cases a' with
    | nil => cases b <;> cases b' <;> exact Same.bind (Same.see _) fun _ _ _ => Same.pure trivial
    | cons => simp [SameLen] at h
  | cons x a ih =>
    cases a' with
    | nil => simp [SameLen] at h
    | cons x' a' =>
      cases b with
      | nil =>
        cases b' with
        | nil => exact Same.bind (Same.see _) fun _ _ _ => Same.pure trivial
        | cons => simp [SameLen] at h'
      | cons y b =>
        cases b' with
        | nil => simp [SameLen] at h'
        | cons y' b' =>
          exact Same.bind (Same.see _) fun _ _ _ => Same.bind (Same.see _) fun _ _ _ => Same.bind (Same.see _) fun _ _ _ => Same.bind (Same.see _) fun _ _ _ =>
            Same.bind (ih _ _ _ _ (Nat.succ.inj h) (Nat.succ.inj h')) fun _ _ _ => Same.pure trivial

theorem chooseT_same (f f' : UInt32) (a b a' b' : Int256) : Same Any (chooseT f a b) (chooseT f' a' b') :=
  Same.bind (chooseLimbsT_same _ _ _ _ _ _ _ (lens _ _) (lens _ _)) fun _ _ _ => ofLimbs_same _ _

theorem addLimbsT_same (i : Nat) (a b a' b' : List UInt32) (c c' : UInt64) (h : SameLen a a') (h' : SameLen b b') :
    Same Any (addLimbsT i a b c) (addLimbsT i a' b' c') := by
  induction a generalizing i b a' b' c c' with
  | nil =>
    cases a' with
    | nil => cases b <;> cases b' <;> exact Same.bind (Same.see _) fun _ _ _ => Same.pure trivial
    | cons => simp [SameLen] at h
  | cons x a ih =>
    cases a' with
    | nil => simp [SameLen] at h
    | cons x' a' =>
      cases b with
      | nil =>
        cases b' with
        | nil => exact Same.bind (Same.see _) fun _ _ _ => Same.pure trivial
        | cons => simp [SameLen] at h'
      | cons y b =>
        cases b' with
        | nil => simp [SameLen] at h'
        | cons y' b' =>
          exact Same.bind (Same.see _) fun _ _ _ => Same.bind (Same.see _) fun _ _ _ => Same.bind (Same.see _) fun _ _ _ => Same.bind (Same.see _) fun _ _ _ =>
            Same.bind (ih _ _ _ _ _ _ (Nat.succ.inj h) (Nat.succ.inj h')) fun _ _ _ => Same.pure trivial

theorem addNoReduceT_same (a b a' b' : Int256) : Same Any (a.addNoReduceT b) (a'.addNoReduceT b') :=
  Same.bind (addLimbsT_same _ _ _ _ _ _ _ (lens _ _) (lens _ _)) fun _ _ _ => Same.bind (ofLimbs_same _ _) fun _ _ _ => Same.pure trivial

theorem subLimbsT_same (i : Nat) (a b a' b' : List UInt32) (c c' : UInt64) (h : SameLen a a') (h' : SameLen b b') :
    Same Any (subLimbsT i a b c) (subLimbsT i a' b' c') := by
  induction a generalizing i b a' b' c c' with
  | nil =>
    cases a' with
    | nil => cases b <;> cases b' <;> exact Same.bind (Same.see _) fun _ _ _ => Same.pure trivial
    | cons => simp [SameLen] at h
  | cons x a ih =>
    cases a' with
    | nil => simp [SameLen] at h
    | cons x' a' =>
      cases b with
      | nil =>
        cases b' with
        | nil => exact Same.bind (Same.see _) fun _ _ _ => Same.pure trivial
        | cons => simp [SameLen] at h'
      | cons y b =>
        cases b' with
        | nil => simp [SameLen] at h'
        | cons y' b' =>
          exact Same.bind (Same.see _) fun _ _ _ => Same.bind (Same.see _) fun _ _ _ => Same.bind (Same.see _) fun _ _ _ => Same.bind (Same.see _) fun _ _ _ =>
            Same.bind (ih _ _ _ _ _ _ (Nat.succ.inj h) (Nat.succ.inj h')) fun _ _ _ => Same.pure trivial

theorem subNoReduceT_same (a b a' b' : Int256) : Same Any (a.subNoReduceT b) (a'.subNoReduceT b') :=
  Same.bind (subLimbsT_same _ _ _ _ _ _ _ (lens _ _) (lens _ _)) fun _ _ _ => Same.bind (ofLimbs_same _ _) fun _ _ _ => Same.pure trivial

theorem reduceOnceT_same (a a' : Int256) (c c' : UInt32) : Same Any (a.reduceOnceT .release c) (a'.reduceOnceT .release c') :=
  Same.bind (subNoReduceT_same _ _ _ _) fun _ _ _ => Same.bind (R := Any) (Same.pure trivial) fun _ _ _ => chooseT_same _ _ _ _ _ _

theorem reduceOnceZeroT_same (a a' : Int256) : Same Any (a.reduceOnceZeroT .release) (a'.reduceOnceZeroT .release) := reduceOnceT_same _ _ _ _

theorem addT_same (a b a' b' : Int256) : Same Any (a.addT .release b) (a'.addT .release b') :=
  Same.bind (addNoReduceT_same _ _ _ _) fun _ _ _ => reduceOnceT_same _ _ _ _

theorem doubleT_same (a a' : Int256) : Same Any (a.doubleT .release) (a'.doubleT .release) := addT_same _ _ _ _

theorem subT_same (a b a' b' : Int256) : Same Any (a.subT .release b) (a'.subT .release b') :=
  Same.bind (subNoReduceT_same _ _ _ _) fun _ _ _ => Same.bind (addNoReduceT_same _ _ _ _) fun _ _ _ => Same.bind (R := Any) (Same.pure trivial) fun _ _ _ => chooseT_same _ _ _ _ _ _

theorem mulStep_length (a b : UInt32) (k : Nat) (w : List UInt64) : (mulStep a b k w).length = w.length := by simp [mulStep]

theorem mulRowT_same (i : Nat) (a a' : UInt32) (j : Nat) (b b' : List UInt32) (w w' : List UInt64) (h : SameLen b b') (hw : SameLen w w') :
    Same SameLen (mulRowT i a j b w) (mulRowT i a' j b' w') := by
  induction b generalizing j b' w w' with
  | nil =>
    cases b' with
    | nil => exact Same.bind (Same.see _) fun _ _ _ => Same.pure hw
    | cons => simp [SameLen] at h
  | cons y b ih =>
    cases b' with
    | nil => simp [SameLen] at h
    | cons y' b' =>
      exact Same.bind (Same.see _) fun _ _ _ => Same.bind (Same.see _) fun _ _ _ => Same.bind (Same.see _) fun _ _ _ => Same.bind (Same.see _) fun _ _ _ =>
        Same.bind (Same.see _) fun _ _ _ => Same.bind (Same.see _) fun _ _ _ => ih _ _ _ _ (Nat.succ.inj h) (by simp only [SameLen, mulStep_length]; exact hw)

theorem mulRowsT_same (b b' : List UInt32) (i : Nat) (a a' : List UInt32) (w w' : List UInt64) (hb : SameLen b b') (h : SameLen a a') (hw : SameLen w w') :
    Same SameLen (mulRowsT b i a w) (mulRowsT b' i a' w') := by
  induction a generalizing i a' w w' with
  | nil =>
    cases a' with
    | nil => exact Same.bind (Same.see _) fun _ _ _ => Same.pure hw
    | cons => simp [SameLen] at h
  | cons x a ih =>
    cases a' with
    | nil => simp [SameLen] at h
    | cons x' a' =>
      exact Same.bind (Same.see _) fun _ _ _ => Same.bind (mulRowT_same _ _ _ _ _ _ _ _ hb hw) fun _ _ hw => ih _ _ _ _ (Nat.succ.inj h) hw

theorem carryLimbsT_same (i : Nat) (w w' : List UInt64) (c c' : UInt64) (h : SameLen w w') : Same Any (carryLimbsT i w c) (carryLimbsT i w' c') := by
  induction w generalizing i w' c c' with
  | nil =>
    cases w' with
    | nil => exact Same.bind (Same.see _) fun _ _ _ => Same.pure trivial
    | cons => simp [SameLen] at h
  | cons x w ih =>
    cases w' with
    | nil => simp [SameLen] at h
    | cons x' w' =>
      exact Same.bind (Same.see _) fun _ _ _ => Same.bind (Same.see _) fun _ _ _ => Same.bind (Same.see _) fun _ _ _ =>
        Same.bind (ih _ _ _ _ (Nat.succ.inj h)) fun _ _ _ => Same.pure trivial

theorem copyLoop_same : Same Any copyLoop copyLoop := fun _ _ _ _ => ⟨rfl, trivial⟩

theorem reduceWideT_same (v v' : Nat → UInt32) : Same Any (reduceWideT .release v) (reduceWideT .release v') := by
  unfold reduceWideT
  dsimp only
  repeat' first
    | with_reducible exact subT_same _ _ _ _
    | with_reducible refine Same.bind (reduceOnceZeroT_same _ _) fun _ _ _ => ?_
    | with_reducible refine Same.bind copyLoop_same fun _ _ _ => ?_
    | with_reducible refine Same.bind (doubleT_same _ _) fun _ _ _ => ?_
    | with_reducible refine Same.bind (addT_same _ _ _ _) fun _ _ _ => ?_

theorem multT_same (a b a' b' : Int256) : Same Any (a.multT .release b) (a'.multT .release b') :=
  Same.bind (mulRowsT_same _ _ _ _ _ _ _ (lens _ _) (lens _ _) rfl) fun _ _ h => Same.bind (carryLimbsT_same _ _ _ _ _ h) fun _ _ _ =>
    Same.bind (R := Any) (Same.pure trivial) fun _ _ _ => reduceWideT_same _ _

theorem squareT_same (a a' : Int256) : Same Any (a.squareT .release) (a'.squareT .release) := multT_same _ _ _ _

theorem squareNT_same (n : Nat) (a a' : Int256) : Same Any (squareNT .release n a) (squareNT .release n a') := by
  induction n generalizing a a' with
  | zero => exact Same.bind (Same.see _) fun _ _ _ => Same.pure trivial
  | succ n ih => exact Same.bind (Same.see _) fun _ _ _ => Same.bind (squareT_same _ _) fun _ _ _ => ih _ _

theorem zNT_same (z z' : Int256) (n : Nat) : Same Any (zNT .release z n) (zNT .release z' n) :=
  Same.bind (squareNT_same _ _ _) fun _ _ _ => multT_same _ _ _ _

theorem z1T_same (z a z' a' : Int256) : Same Any (z1T .release z a) (z1T .release z' a') :=
  Same.bind (squareT_same _ _) fun _ _ _ => multT_same _ _ _ _

theorem inverseT_same (a a' : Int256) : Same Any (a.inverseT .release) (a'.inverseT .release) := by
  unfold inverseT
  repeat' first
    | with_reducible exact multT_same _ _ _ _
    | with_reducible refine Same.bind (zNT_same _ _ _) fun _ _ _ => ?_
    | with_reducible refine Same.bind (z1T_same _ _ _ _) fun _ _ _ => ?_
    | with_reducible refine Same.bind (squareT_same _ _) fun _ _ _ => ?_
    | with_reducible refine Same.bind (squareNT_same _ _ _) fun _ _ _ => ?_
    | with_reducible refine Same.bind (multT_same _ _ _ _) fun _ _ _ => ?_

theorem halveT_same (i : Nat) (l l' : List UInt32) (t t' : UInt32) (h : SameLen l l') : Same Any (halveT i l t) (halveT i l' t') := by
  induction l generalizing i l' with
  | nil =>
    cases l' with
    | nil => exact Same.pure trivial
    | cons => simp [SameLen] at h
  | cons a l ih =>
    cases l' with
    | nil => simp [SameLen] at h
    | cons a' l' =>
      cases l with
      | nil =>
        cases l' with
        | nil => exact Same.bind (Same.see _) fun _ _ _ => Same.pure trivial
        | cons => simp [SameLen] at h
      | cons b l =>
        cases l' with
        | nil => simp [SameLen] at h
        | cons b' l' =>
          exact Same.bind (Same.see _) fun _ _ _ => Same.bind (Same.see _) fun _ _ _ => Same.bind (Same.see _) fun _ _ _ => Same.bind (Same.see _) fun _ _ _ =>
            Same.bind (ih _ _ (Nat.succ.inj h)) fun _ _ _ => Same.pure trivial

theorem divideBy2T_same (a a' : Int256) : Same Any a.divideBy2T a'.divideBy2T :=
  Same.bind (halveT_same _ _ _ _ _ (lens _ _)) fun _ _ _ => Same.bind (ofLimbs_same _ _) fun _ _ _ => Same.bind (addNoReduceT_same _ _ _ _) fun _ _ _ =>
    Same.bind (halveT_same _ _ _ _ _ (lens _ _)) fun _ _ _ => Same.bind (ofLimbs_same _ _) fun _ _ _ => chooseT_same _ _ _ _ _ _

theorem limbsBytesT_same (i : Nat) (l l' : List UInt32) (h : SameLen l l') : Same SameLen (limbsBytesT i l) (limbsBytesT i l') := by
  induction l generalizing i l' with
  | nil =>
    cases l' with
    | nil => exact Same.bind (Same.see _) fun _ _ _ => Same.pure rfl
    | cons => simp [SameLen] at h
  | cons x l ih =>
    cases l' with
    | nil => simp [SameLen] at h
    | cons x' l' =>
      refine Same.bind (Same.see _) fun _ _ _ => Same.bind (Same.see _) fun _ _ _ => Same.bind (R := SameLen) ?_ fun b b' hb => Same.bind (ih _ _ (Nat.succ.inj h)) fun c c' hc => Same.pure ?_
      · refine Same.forEach (R := SameLen) (fun j s t hst => ?_) _ rfl
        refine Same.bind (Same.see _) fun _ _ _ => Same.pure ?_
        simp only [SameLen, List.length_append, List.length_cons, List.length_nil] at *
        rw [hst]
      · simp only [SameLen, List.length_append] at *
        rw [hb, hc]

theorem toBytesT_same (a a' : Int256) : Same SameLen a.toBytesT a'.toBytesT :=
  Same.bind (limbsBytesT_same _ _ _ (by simp only [SameLen, List.length_reverse]; exact lens _ _)) fun _ _ h => Same.bind (Same.see_eq (congrArg _ h)) fun _ _ _ => Same.pure h

end Int256

namespace Point256

open Int256

theorem normalizeT_same (p p' : Point256) : Same Any (p.normalizeT .release) (p'.normalizeT .release) := by
  unfold normalizeT
  repeat' first
    | with_reducible exact Same.pure trivial
    | with_reducible refine Same.bind (squareT_same _ _) fun _ _ _ => ?_
    | with_reducible refine Same.bind (inverseT_same _ _) fun _ _ _ => ?_
    | with_reducible refine Same.bind (multT_same _ _ _ _) fun _ _ _ => ?_

theorem chooseT_same (f f' : UInt32) (a b a' b' : Point256) : Same Any (chooseT f a b) (chooseT f' a' b') :=
  Same.bind (Int256.chooseT_same _ _ _ _ _ _) fun _ _ _ => Same.bind (Int256.chooseT_same _ _ _ _ _ _) fun _ _ _ => Same.bind (Int256.chooseT_same _ _ _ _ _ _) fun _ _ _ => Same.pure trivial

theorem doubleT_same (p p' : Point256) : Same Any (p.doubleT .release) (p'.doubleT .release) := by
  unfold doubleT
  repeat' first
    | with_reducible exact chooseT_same _ _ _ _ _ _
    | with_reducible refine Same.bind (squareT_same _ _) fun _ _ _ => ?_
    | with_reducible refine Same.bind (multT_same _ _ _ _) fun _ _ _ => ?_
    | with_reducible refine Same.bind (Int256.addT_same _ _ _ _) fun _ _ _ => ?_
    | with_reducible refine Same.bind (subT_same _ _ _ _) fun _ _ _ => ?_
    | with_reducible refine Same.bind (compareT_same _ _ _ _) fun _ _ _ => ?_

theorem addT_same (a b a' b' : Point256) : Same Any (a.addT .release b) (a'.addT .release b') := by
  unfold addT
  repeat' first
    | with_reducible exact chooseT_same _ _ _ _ _ _
    | with_reducible refine Same.bind (squareT_same _ _) fun _ _ _ => ?_
    | with_reducible refine Same.bind (multT_same _ _ _ _) fun _ _ _ => ?_
    | with_reducible refine Same.bind (Int256.addT_same _ _ _ _) fun _ _ _ => ?_
    | with_reducible refine Same.bind (subT_same _ _ _ _) fun _ _ _ => ?_
    | with_reducible refine Same.bind (compareT_same _ _ _ _) fun _ _ _ => ?_
    | with_reducible refine Same.bind (divideBy2T_same _ _) fun _ _ _ => ?_
    | with_reducible refine Same.bind (doubleT_same _ _) fun _ _ _ => ?_
    | with_reducible refine Same.bind (chooseT_same _ _ _ _ _ _) fun _ _ _ => ?_

theorem ladderRowT_same (p p' : Point256) (n n' : Int256) (i : Nat) (js : List UInt32) (r r' : Point256) :
    Same Any (ladderRowT .release p n i js r) (ladderRowT .release p' n' i js r') := by
  induction js generalizing r r' with
  | nil => exact Same.bind (Same.see _) fun _ _ _ => Same.pure trivial
  | cons j js ih =>
    exact Same.bind (Same.see _) fun _ _ _ => Same.bind (Same.see _) fun _ _ _ => Same.bind (doubleT_same _ _) fun _ _ _ => Same.bind (addT_same _ _ _ _) fun _ _ _ =>
      Same.bind (chooseT_same _ _ _ _ _ _) fun _ _ _ => ih _ _

theorem ladderRowsT_same (p p' : Point256) (n n' : Int256) (is : List Nat) (r r' : Point256) :
    Same Any (ladderRowsT .release p n is r) (ladderRowsT .release p' n' is r') := by
  induction is generalizing r r' with
  | nil => exact Same.bind (Same.see _) fun _ _ _ => Same.pure trivial
  | cons i is ih => exact Same.bind (Same.see _) fun _ _ _ => Same.bind (ladderRowT_same _ _ _ _ _ _ _ _) fun _ _ _ => ih _ _

theorem multScalarT_same (p p' : Point256) (n n' : Int256) : Same Any (p.multScalarT .release n) (p'.multScalarT .release n') := ladderRowsT_same _ _ _ _ _ _ _

end Point256

theorem NPoint256.toUncompressedBytesT_same (p p' : NPoint256) : Same Int256.SameLen p.toUncompressedBytesT p'.toUncompressedBytesT :=
  Same.bind (Int256.toBytesT_same _ _) fun _ _ h => Same.bind (Same.see_eq (congrArg _ h)) fun _ _ _ => Same.bind (Int256.toBytesT_same _ _) fun _ _ h' =>
    Same.bind (Same.see_eq (congrArg _ h')) fun _ _ _ => Same.pure (by simp only [Int256.SameLen, List.length_cons, List.length_append] at *; rw [h, h'])

end Husk
