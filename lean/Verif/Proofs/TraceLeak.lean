import Verif.Proofs.TraceP256
import Verif.Proofs.TraceP256Same
import Verif.Proofs.P256Point
/-! Two executions of `mult_scalar` that a debug build tells apart. -/

namespace Husk

open Tr

/-- The first place where two executions differ is an observation in both. -/
def diffB : List Obs → List Obs → Bool
  | a :: as, b :: bs => if a = b then diffB as bs else true
  | _, _ => false

theorem diffB_ne (a b : List Obs) (h : diffB a b = true) : a ≠ b := by
  induction a generalizing b with
  | nil => cases h
  | cons x a ih =>
    cases b with
    | nil => cases h
    | cons y b =>
      unfold diffB at h
      by_cases e : x = y
      · rw [if_pos e] at h
        intro e'
        exact ih b h (List.cons.inj e').2
      · exact fun e' => e (List.cons.inj e').1

theorem diffB_append (a b c d : List Obs) (h : diffB a b = true) : diffB (a ++ c) (b ++ d) = true := by
  induction a generalizing b with
  | nil => cases h
  | cons x a ih =>
    cases b with
    | nil => cases h
    | cons y b =>
      unfold diffB at h
      show (if x = y then diffB (a ++ c) (b ++ d) else true) = true
      by_cases e : x = y
      · rw [if_pos e] at h ⊢
        exact ih b h
      · rw [if_neg e]

theorem diffB_prefix (t a b : List Obs) (h : diffB a b = true) : diffB (t ++ a) (t ++ b) = true := by
  induction t with
  | nil => exact h
  | cons x t ih =>
    show (if x = x then diffB (t ++ a) (t ++ b) else true) = true
    rw [if_pos rfl]
    exact ih

theorem bind_trace_prefix (x : Tr α) (f : α → Tr β) : ∃ t, (x >>= f).trace = x.trace ++ t := by
  show ∃ t, (Tr.bind x f).trace = _
  unfold Tr.bind
  cases x.res with
  | ok a => exact ⟨_, rfl⟩
  | err | panic | diverge => exact ⟨[], (List.append_nil _).symm⟩

theorem bind_trace_ok {x : Tr α} {a : α} (f : α → Tr β) (h : x.res = .ok a) : (x >>= f).trace = x.trace ++ (f a).trace := by
  show (Tr.bind x f).trace = _
  unfold Tr.bind
  rw [h]

theorem diffB_bind_left {x : Tr α} {y : Tr β} (f : α → Tr γ) (g : β → Tr δ) (h : diffB x.trace y.trace = true) : diffB (x >>= f).trace (y >>= g).trace = true := by
  obtain ⟨t, ht⟩ := bind_trace_prefix x f
  obtain ⟨u, hu⟩ := bind_trace_prefix y g
  rw [ht, hu]
  exact diffB_append _ _ _ _ h

theorem diffB_bind_right {x : Tr α} {y : Tr β} {a : α} {b : β} (f : α → Tr γ) (g : β → Tr δ) (ha : x.res = .ok a) (hb : y.res = .ok b) (e : x.trace = y.trace)
    (h : diffB (f a).trace (g b).trace = true) : diffB (x >>= f).trace (y >>= g).trace = true := by
  rw [bind_trace_ok f ha, bind_trace_ok g hb, e]
  exact diffB_prefix _ _ _ h

namespace Point256

/-- The scalars 1 and 2. -/
def one : Int256 := ⟨[1, 0, 0, 0, 0, 0, 0, 0], rfl⟩
def two : Int256 := ⟨[2, 0, 0, 0, 0, 0, 0, 0], rfl⟩

theorem ladderRowT_cons (m : Mode) (p : Point256) (n : Int256) (i : Nat) (j : UInt32) (js : List UInt32) (ret : Point256) :
    ladderRowT m p n i (j :: js) ret = (see (.branch true) >>= fun _ => see (.index i) >>= fun _ => ret.doubleT m >>= fun ret2 => ret2.addT m p >>= fun ret3 =>
      chooseT ((n.v.getD i 0 >>> j) &&& 1) ret2 ret3 >>= fun ret => ladderRowT m p n i js ret) := rfl

theorem ladderRowsT_cons (m : Mode) (p : Point256) (n : Int256) (i : Nat) (is : List Nat) (ret : Point256) :
    ladderRowsT m p n (i :: is) ret = (see (.branch true) >>= fun _ => ladderRowT m p n i [7, 6, 5, 4, 3, 2, 1, 0] ret >>= fun ret => ladderRowsT m p n is ret) := rfl

section

variable {m : Mode} {I P : Point256} (hd : (I.doubleT m).res = .ok I) (ha : (I.addT m P).res = .ok P)
include hd ha

/-- One step from the point at infinity. -/
theorem step_differs (n n' : Int256) (i : Nat) (j : UInt32) (js : List UInt32) (r r' : Point256) (h : choose ((n.v.getD i 0 >>> j) &&& 1) I P = r)
    (h' : choose ((n'.v.getD i 0 >>> j) &&& 1) I P = r') (h3 : diffB (ladderRowT m P n i js r).trace (ladderRowT m P n' i js r').trace = true) :
    diffB (ladderRowT m P n i (j :: js) I).trace (ladderRowT m P n' i (j :: js) I).trace = true := by
  rw [ladderRowT_cons, ladderRowT_cons]
  refine diffB_bind_right _ _ rfl rfl rfl (diffB_bind_right _ _ rfl rfl rfl (diffB_bind_right _ _ hd hd rfl
    (diffB_bind_right _ _ ha ha rfl (diffB_bind_right _ _ (chooseT_res _ _ _) (chooseT_res _ _ _) ?_ ?_))))
  · exact (chooseT_same _ _ _ _ _ _ _ _ (chooseT_res _ _ _) (chooseT_res _ _ _)).1
  · rw [h, h']
    exact h3

omit hd ha in
theorem row_congr (n n' : Int256) (i : Nat) (h : n.v.getD i 0 = n'.v.getD i 0) (m : Mode) (p : Point256) (js : List UInt32) (r : Point256) :
    ladderRowT m p n i js r = ladderRowT m p n' i js r := by
  induction js generalizing r with
  | nil => simp only [ladderRowT]
  | cons j js ih => simp only [ladderRowT_cons, h, ih]

/-- A limb that is zero keeps the point at infinity. -/
theorem row_infty (n : Int256) (i : Nat) (h : n.v.getD i 0 = 0) (js : List UInt32) : (ladderRowT m P n i js I).res = .ok I := by
  induction js with
  | nil => simp only [ladderRowT, bind_res, see_res, Res.bind_ok, pure_res]
  | cons j js ih =>
    have e : ((0 : UInt32) >>> j) &&& 1 = 0 := by simp
    simp only [ladderRowT_cons, bind_res, see_res, Res.bind_ok, hd, ha, chooseT_res, h, e, choose_zero, ih]

theorem rows_differ (n n' : Int256) (i : Nat) (is : List Nat) (h : n.v.getD i 0 = 0) (h' : n'.v.getD i 0 = 0)
    (h3 : diffB (ladderRowsT m P n is I).trace (ladderRowsT m P n' is I).trace = true) :
    diffB (ladderRowsT m P n (i :: is) I).trace (ladderRowsT m P n' (i :: is) I).trace = true := by
  rw [ladderRowsT_cons, ladderRowsT_cons]
  refine diffB_bind_right _ _ rfl rfl rfl (diffB_bind_right _ _ (row_infty hd ha n i h _) (row_infty hd ha n' i h' _) ?_ h3)
  rw [row_congr n n' i (h.trans h'.symm)]

/-- With the scalars 1 and 2 the last step doubles the point at infinity and the generator. -/
theorem ladder_differs (h2 : diffB (I.doubleT m).trace (P.doubleT m).trace = true) :
    diffB (ladderRowsT m P one [6, 5, 4, 3, 2, 1, 0] I).trace (ladderRowsT m P two [6, 5, 4, 3, 2, 1, 0] I).trace = true := by
  have hz : ∀ i, 0 < i → one.v.getD i 0 = 0 ∧ two.v.getD i 0 = 0 := by
    intro i hi
    obtain ⟨k, rfl⟩ : ∃ k, i = k + 1 := ⟨i - 1, by omega⟩
    constructor <;> (rcases k with _ | _ | _ | _ | _ | _ | _ | k <;> rfl)
  have step : ∀ (i : Nat) (is : List Nat), 0 < i → diffB (ladderRowsT m P one is I).trace (ladderRowsT m P two is I).trace = true →
      diffB (ladderRowsT m P one (i :: is) I).trace (ladderRowsT m P two (i :: is) I).trace = true :=
    fun i is hi h => rows_differ hd ha one two i is (hz i hi).1 (hz i hi).2 h
  refine step 6 _ (by omega) (step 5 _ (by omega) (step 4 _ (by omega) (step 3 _ (by omega) (step 2 _ (by omega) (step 1 _ (by omega) ?_)))))
  rw [ladderRowsT_cons, ladderRowsT_cons]
  refine diffB_bind_right _ _ rfl rfl rfl (diffB_bind_left _ _ ?_)
  have z : ∀ b : UInt32, b = 0 → choose b I P = I := fun b h => by rw [h, choose_zero]
  have o : ∀ b : UInt32, b = 1 → choose b I P = P := fun b h => by rw [h, choose_one]
  refine step_differs hd ha _ _ _ _ _ _ _ (z _ (by decide +kernel)) (z _ (by decide +kernel)) ?_
  refine step_differs hd ha _ _ _ _ _ _ _ (z _ (by decide +kernel)) (z _ (by decide +kernel)) ?_
  refine step_differs hd ha _ _ _ _ _ _ _ (z _ (by decide +kernel)) (z _ (by decide +kernel)) ?_
  refine step_differs hd ha _ _ _ _ _ _ _ (z _ (by decide +kernel)) (z _ (by decide +kernel)) ?_
  refine step_differs hd ha _ _ _ _ _ _ _ (z _ (by decide +kernel)) (z _ (by decide +kernel)) ?_
  refine step_differs hd ha _ _ _ _ _ _ _ (z _ (by decide +kernel)) (z _ (by decide +kernel)) ?_
  refine step_differs hd ha _ _ _ _ _ _ _ (z _ (by decide +kernel)) (o _ (by decide +kernel)) ?_
  rw [ladderRowT_cons, ladderRowT_cons]
  exact diffB_bind_right _ _ rfl rfl rfl (diffB_bind_right _ _ rfl rfl rfl (diffB_bind_left _ _ h2))

end

theorem double_differs : diffB (INFTY.doubleT .debug).trace (G.doubleT .debug).trace = true := by
  obtain ⟨a, ha⟩ : ∃ a, (INFTY.z.squareT .debug).res = .ok a := ⟨Int256.ZERO, by decide +kernel⟩
  obtain ⟨b, hb⟩ : ∃ b, (G.z.squareT .debug).res = .ok b := ⟨Int256.ONE, by decide +kernel⟩
  exact diffB_bind_right _ _ ha hb (by decide +kernel) (diffB_bind_left _ _ (by decide +kernel))

theorem infty_double : (INFTY.doubleT .debug).res = .ok INFTY := by
  rw [doubleT_res]
  decide +kernel

theorem infty_add : (INFTY.addT .debug G).res = .ok G := by
  rw [addT_res]
  decide +kernel

theorem multScalar_differs : diffB (G.multScalarT .debug one).trace (G.multScalarT .debug two).trace = true := by
  unfold multScalarT
  exact ladder_differs infty_double infty_add double_differs

end Point256

end Husk
