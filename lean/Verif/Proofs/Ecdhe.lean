import Verif.Model.Ecdhe
import Verif.Spec.Ecdh
import Verif.Proofs.Handshake
import Verif.Props.P256
/-! The key exchange: codecs, random scalar, keys. -/

namespace Husk

open Spec.P256 (p F curve p_eq)
open Int256
open WeierstrassCurve.Affine

/-! ### codecs -/

instance : WFItem EcParameters := ⟨fun _ => True⟩

instance : LawfulItem EcData := TlsVec.lawful _ _ (by decide)

instance : LawfulItem EcParameters where
  size_write x b _ h := by
    cases x with | named_curve c =>
    simp only [TlsItem.write] at h
    obtain ⟨b1, h1, h2⟩ := Res.bind_eq_ok.mp h
    simp at h2
    have := LawfulItem.size_write c b1 trivial (h1)
    rw [← h2, List.length_append, Item.writeNum_length, this]
    rfl
  read_write x b rest _ h := by
    cases x with | named_curve c =>
    simp only [TlsItem.write] at h
    obtain ⟨b1, h1, h2⟩ := Res.bind_eq_ok.mp h
    simp at h2
    subst h2
    rw [List.append_assoc]
    have := LawfulItem.read_write c b1 rest trivial (h1)
    show (Item.readNum 1 >>= _ : P _).run _ = _
    rw [St.bind_of_ok (Item.readNum_append 1 3 _ (by decide)), if_pos rfl, St.bind_of_ok this, St.pure_run]
  write_read bs rest x h := by
    refine ⟨trivial, ?_⟩
    obtain ⟨n, s1, h1, h2⟩ := St.bind_eq_ok (show (Item.readNum 1 >>= _ : P _).run _ = _ from h)
    obtain ⟨h3, h4⟩ := Item.readNum_inv h1
    split at h2
    · rename_i hn
      subst hn
      obtain ⟨c, s2, h5, h6⟩ := St.bind_eq_ok h2
      rw [St.pure_run] at h6
      simp at h6
      obtain ⟨rfl, rfl⟩ := h6
      obtain ⟨_, b, e1, e2, e3⟩ := LawfulItem.write_read _ _ _ h5
      refine ⟨Item.writeNum 1 3 ++ b, by rw [h4, e1, List.append_assoc], by rw [List.length_append, e2, Item.writeNum_length]; rfl, ?_⟩
      intro b' hb
      simp only [TlsItem.write] at hb
      obtain ⟨b1, g1, g2⟩ := Res.bind_eq_ok.mp hb
      simp at g2
      rw [← g2, e3 b1 g1]
    · simp [St.err_run] at h2
  read_returns bs := St.returns_bind (Item.readNum_returns 1 bs) (fun n s1 _ => by
    split
    · exact St.returns_bind (LawfulItem.read_returns s1) (fun _ _ _ => trivial)
    · trivial)
  write_returns x := by
    cases x with | named_curve c => exact Res.returns_bind (LawfulItem.write_returns c) (fun _ _ => trivial)

def ServerEcdhParams.iso : Iso ServerEcdhParams (EcParameters × EcData) where
  «to» a := (a.curve_params, a.pub)
  inv q := ⟨q.1, q.2⟩
  to_inv _ := rfl
  inv_to _ := rfl
  write _ := rfl
  size _ := rfl
  read bs := by simp only [TlsItem.read, bind_assoc, pure_bind]

instance : WFItem ServerEcdhParams := ⟨fun a => wf a.pub⟩
instance : LawfulItem ServerEcdhParams := ServerEcdhParams.iso.lawful (fun _ => ⟨fun h => ⟨trivial, h⟩, fun h => h.2⟩)

def EcdheServerKeyExchange.iso : Iso EcdheServerKeyExchange (ServerEcdhParams × DigitallySigned) where
  «to» a := (a.params, a.signed_params)
  inv q := ⟨q.1, q.2⟩
  to_inv _ := rfl
  inv_to _ := rfl
  write _ := rfl
  size _ := rfl
  read bs := by simp only [TlsItem.read, bind_assoc, pure_bind]

instance : WFItem EcdheServerKeyExchange := ⟨fun a => wf a.params ∧ wf a.signed_params⟩
instance : LawfulItem EcdheServerKeyExchange :=
  EcdheServerKeyExchange.iso.lawful (fun _ => ⟨fun h => h, fun h => h⟩)

/-! ### the random scalar -/

namespace Ecdhe

theorem fillBytes_ok {n : Nat} {r : Rng} (h : n ≤ r.bytes.length) :
    (Rng.fillBytes n).run r = (.ok (r.bytes.take n), { bytes := r.bytes.drop n }) := by
  simp [Rng.fillBytes, h]

theorem fillBytes_short {n : Nat} {r : Rng} (h : ¬ n ≤ r.bytes.length) : (Rng.fillBytes n).run r = (.diverge, { bytes := [] }) := by
  simp only [Rng.fillBytes, h, if_false]

theorem drawLimbs_spec (k : Nat) (r : Rng) :
    (4 * k ≤ r.bytes.length → ∃ ws, (drawLimbs k).run r = (.ok ws, { bytes := r.bytes.drop (4 * k) }) ∧ ws.length = k ∧
      lval ws = leNat (r.bytes.take (4 * k))) ∧
    (¬ 4 * k ≤ r.bytes.length → ((drawLimbs k).run r).1 = .diverge) := by
  induction k generalizing r with
  | zero =>
    refine ⟨fun _ => ⟨[], by rw [drawLimbs, St.pure_run]; rfl, rfl, rfl⟩, fun h => absurd (Nat.zero_le _) h⟩
  | succ k ih =>
    rw [drawLimbs, Rng.nextU32, bind_assoc]
    by_cases h4 : 4 ≤ r.bytes.length
    · rw [St.bind_of_ok (fillBytes_ok h4), pure_bind]
      obtain ⟨h1, h2⟩ := ih { bytes := r.bytes.drop 4 }
      constructor
      · intro h
        obtain ⟨ws, hw, hl, hv⟩ := h1 (by simp only [List.length_drop]; omega)
        refine ⟨UInt32.ofNat (leNat (r.bytes.take 4)) :: ws, ?_, by simp [hl], ?_⟩
        · rw [St.bind_of_ok hw, St.pure_run]
          simp only [List.drop_drop]
          rw [show 4 * (k + 1) = 4 + 4 * k by omega]
        · have e : r.bytes.take (4 * (k + 1)) = r.bytes.take 4 ++ (r.bytes.drop 4).take (4 * k) := by
            rw [show 4 * (k + 1) = 4 + 4 * k by omega, List.take_add]
          have hlt := leNat_lt (r.bytes.take 4)
          have hlen : (r.bytes.take 4).length = 4 := by simp [h4]
          rw [hlen] at hlt
          rw [lval, hv, e, leNat_append, hlen]
          simp only [UInt32.toNat_ofNat']
          rw [Nat.mod_eq_of_lt (by simpa using hlt)]
          norm_num
      · intro h
        have := h2 (by simp only [List.length_drop]; omega)
        rcases hr : (drawLimbs k).run { bytes := r.bytes.drop 4 } with ⟨x, s⟩
        rw [hr] at this
        simp only at this
        subst this
        rw [St.bind_of_diverge hr]
    · rw [St.bind_of_diverge (fillBytes_short h4)]
      exact ⟨fun h => absurd h (by omega), fun _ => rfl⟩

theorem drawCandidate_ok (r : Rng) (h : 32 ≤ r.bytes.length) :
    ∃ x, drawCandidate.run r = (.ok x, { bytes := r.bytes.drop 32 }) ∧ x.val = leNat (r.bytes.take 32) := by
  obtain ⟨ws, hw, hl, hv⟩ := (drawLimbs_spec 8 r).1 h
  refine ⟨⟨ws, hl⟩, ?_, hv⟩
  rw [drawCandidate, St.bind_of_ok hw, dif_pos hl]
  rfl

theorem drawCandidate_short (r : Rng) (h : ¬ 32 ≤ r.bytes.length) : ∃ s, drawCandidate.run r = (.diverge, s) := by
  have := (drawLimbs_spec 8 r).2 h
  rcases hr : (drawLimbs 8).run r with ⟨x, s⟩
  rw [hr] at this
  simp only at this
  subst this
  exact ⟨s, by rw [drawCandidate, St.bind_of_diverge hr]⟩

/-- One round of the loop. -/
theorem randomLoop_step (m : Mode) (fuel : Nat) (r : Rng) (h : 32 ≤ r.bytes.length) :
    ∃ x : Int256, x.val = leNat (r.bytes.take 32) ∧
      (x.val < p → (randomLoop m (fuel + 1)).run r = (.ok x, { bytes := r.bytes.drop 32 })) ∧
      (¬ x.val < p → (randomLoop m (fuel + 1)).run r = (randomLoop m fuel).run { bytes := r.bytes.drop 32 }) := by
  obtain ⟨x, hx, hv⟩ := drawCandidate_ok r h
  have hp := p_eq
  obtain ⟨xx, hxx, hxv⟩ := reduceOnce_spec m x 0 (Or.inl rfl) (by have := x.val_lt; simp; omega)
  simp only [UInt32.toNat_zero, Nat.mul_zero, Nat.add_zero] at hxv
  refine ⟨x, hv, fun hlt => ?_, fun hge => ?_⟩
  · rw [if_pos hlt] at hxv
    rw [randomLoop, St.bind_of_ok hx, St.bind_of_ok (show (St.lift (x.reduceOnce m 0) : St Rng _).run _ = (.ok xx, _) by rw [hxx, St.lift_run]),
      val_inj hxv, compare_eq, if_pos rfl]
    rfl
  · rw [if_neg hge] at hxv
    rw [randomLoop, St.bind_of_ok hx, St.bind_of_ok (show (St.lift (x.reduceOnce m 0) : St Rng _).run _ = (.ok xx, _) by rw [hxx, St.lift_run]),
      compare_eq, if_neg (c := xx = x) (fun e => by rw [e] at hxv; omega)]
    rw [if_neg (by decide)]

/-- The loop returns the first candidate below p. -/
theorem randomLoop_first (m : Mode) (blocks : List Bytes) (block rest : Bytes) (fuel : Nat) (hf : blocks.length < fuel)
    (hb : ∀ b ∈ blocks, b.length = 32 ∧ p ≤ leNat b) (hl : block.length = 32) (hlt : leNat block < p) :
    ∃ x : Int256, x.val = leNat block ∧ (randomLoop m fuel).run { bytes := blocks.flatten ++ block ++ rest } = (.ok x, { bytes := rest }) := by
  induction blocks generalizing fuel with
  | nil =>
    match fuel, hf with
    | fuel + 1, _ =>
    obtain ⟨x, hv, h1, _⟩ := randomLoop_step m fuel { bytes := block ++ rest } (by simp [hl])
    have hv : x.val = leNat block := by rw [hv]; simp [← hl]
    refine ⟨x, hv, ?_⟩
    simp only [List.flatten_nil, List.nil_append]
    rw [h1 (by rw [hv]; exact hlt)]
    simp [← hl]
  | cons b blocks ih =>
    match fuel, hf with
    | fuel + 1, hf =>
    have hbl := hb b (List.mem_cons_self ..)
    obtain ⟨x, hv, _, h2⟩ := randomLoop_step m fuel { bytes := b ++ (blocks.flatten ++ block ++ rest) } (by simp [hbl.1])
    have hv' : x.val = leNat b := by rw [hv]; simp [← hbl.1]
    obtain ⟨y, hy, hr⟩ := ih fuel (by simpa using hf) (fun b hb' => hb b (List.mem_cons_of_mem _ hb'))
    refine ⟨y, hy, ?_⟩
    rw [List.flatten_cons, List.append_assoc, List.append_assoc, ← List.append_assoc blocks.flatten, h2 (by rw [hv']; omega), ← hr]
    simp [← hbl.1]

/-- Whatever the loop returns. -/
theorem randomLoop_inv (m : Mode) (fuel : Nat) (r : Rng) :
    (∃ s, (randomLoop m fuel).run r = (.diverge, s)) ∨
    ∃ (blocks : List Bytes) (block rest : Bytes) (x : Int256), r.bytes = blocks.flatten ++ block ++ rest ∧ (∀ b ∈ blocks, b.length = 32 ∧ p ≤ leNat b) ∧
      block.length = 32 ∧ leNat block < p ∧ x.val = leNat block ∧ (randomLoop m fuel).run r = (.ok x, { bytes := rest }) := by
  induction fuel generalizing r with
  | zero => exact Or.inl ⟨r, rfl⟩
  | succ fuel ih =>
    by_cases h : 32 ≤ r.bytes.length
    · obtain ⟨x, hv, h1, h2⟩ := randomLoop_step m fuel r h
      by_cases hx : x.val < p
      · exact Or.inr ⟨[], r.bytes.take 32, r.bytes.drop 32, x, by simp, by simp, by simp [h], by omega, hv, h1 hx⟩
      · rw [h2 hx]
        rcases ih { bytes := r.bytes.drop 32 } with hd | ⟨blocks, block, rest, y, e, hb, hl, hlt, hy, hr⟩
        · exact Or.inl hd
        · refine Or.inr ⟨r.bytes.take 32 :: blocks, block, rest, y, ?_, ?_, hl, hlt, hy, hr⟩
          · rw [List.flatten_cons, List.append_assoc, List.append_assoc, ← List.append_assoc blocks.flatten, ← e, List.take_append_drop]
          · intro b hb'
            rcases List.mem_cons.mp hb' with rfl | hb'
            · exact ⟨by simp [h], by omega⟩
            · exact hb b hb'
    · obtain ⟨s, hs⟩ := drawCandidate_short r h
      exact Or.inl ⟨s, by rw [randomLoop, St.bind_of_diverge hs]⟩

/-! ### the keys -/

theorem write_bytes (l : Bytes) : TlsVec.writeItems l = .ok l := by
  induction l with
  | nil => rfl
  | cons a l ih =>
    rw [TlsVec.writeItems, ih]
    simp [TlsItem.write, Item.writeNum, beBytes, leBytes]

theorem sizes_bytes (l : Bytes) : TlsVec.sizes l = l.length := by
  induction l with
  | nil => rfl
  | cons a l ih => rw [TlsVec.sizes, ih, List.length_cons, Nat.add_comm]; rfl

/-- What follows from the representation: `normalize` gives the coordinates of the point, zeros for infinity. -/
theorem normalize_rep (m : Mode) (q : Point256) (P : curve.Point) (h : q.Rep P) :
    ∃ r, q.normalize m = .ok r ∧ r.toUncompressedBytes = Spec.P256.encode P ∧ r.x.toBytes = Spec.P256.xBytes P := by
  cases P with
  | zero =>
    refine ⟨_, C49_normalize_infinity m q h, ?_, ?_⟩
    · show 4 :: (ZERO.toBytes ++ ZERO.toBytes) = _
      rw [toBytes_eq, ZERO_eq, val_ofF]
      rfl
    · show ZERO.toBytes = _
      rw [toBytes_eq, ZERO_eq, val_ofF]
      rfl
  | some x y hn =>
    obtain ⟨r, hr, hx, hy, ex, ey⟩ := C49_normalize m q x y hn h
    refine ⟨r, hr, ?_, ?_⟩
    · rw [NPoint256.toUncompressedBytes, toBytes_eq, toBytes_eq, val_eq_toF hx, val_eq_toF hy, ex, ey]; rfl
    · rw [toBytes_eq, val_eq_toF hx, ex]; rfl

theorem encode_length (P : curve.Point) : (Spec.P256.encode P).length = 65 := by cases P <;> simp [Spec.P256.encode]

/-- The tail of `compute_keys` on a point of the curve. -/
theorem keysFrom_rep (m : Mode) (q : Point256) (Q : curve.Point) (hq : q.Rep Q) (x : Int256) :
    keysFrom m q x = .ok (65 :: Spec.P256.encode (Point256.effective x • Spec.P256.G), Spec.P256.xBytes (Point256.effective x • Q)) := by
  obtain ⟨g, hg, hgr⟩ := Point256.multScalar_rep m _ _ Point256.G_rep x
  obtain ⟨gn, hgn, he, _⟩ := normalize_rep m g _ hgr
  obtain ⟨s, hs, hsr⟩ := Point256.multScalar_rep m q Q hq x
  obtain ⟨sn, hsn, _, hx⟩ := normalize_rep m s _ hsr
  have hl := encode_length (Point256.effective x • Spec.P256.G)
  have hnew : TlsVec.new 1 255 (Spec.P256.encode (Point256.effective x • Spec.P256.G)) =
      .ok ⟨Spec.P256.encode (Point256.effective x • Spec.P256.G)⟩ := by
    rw [TlsVec.new_ok_iff, sizes_bytes, hl]; exact ⟨rfl, by decide, by decide⟩
  rw [keysFrom]
  simp only [hg, Res.bind_ok, hgn, hs, hsn, he, hx, hnew]
  simp only [TlsItem.write, write_bytes, Res.bind_ok, sizes_bytes, hl]
  rfl

/-- The point operations return for all coordinates as long as `z` is reduced, on the curve or not. -/
theorem ladder_returns (m : Mode) (q : Point256) (hq : q.z.Canon) (bits : List UInt32) (hb : ∀ b ∈ bits, b = 0 ∨ b = 1) (ret : Point256)
    (hr : ret.z.Canon) : ∃ r, Point256.ladder m q bits ret = .ok r ∧ r.z.Canon := by
  induction bits generalizing ret with
  | nil => exact ⟨ret, rfl, hr⟩
  | cons b bits ih =>
    have hd : ∀ t : Point256, t.z.Canon → ∃ d, t.double m = .ok d ∧ d.z.Canon := by
      intro t ht
      refine ⟨_, Point256.double_eq m t ht, ?_⟩
      split
      · show ZERO.Canon
        rw [ZERO_eq]; exact canon_ofF _
      · exact canon_ofF _
    obtain ⟨d, hd1, hd2⟩ := hd ret hr
    obtain ⟨e, he1, he2⟩ := hd d hd2
    obtain ⟨e', he', ha⟩ := Point256.add_eq m d q hd2 hq
    rw [he1] at he'; cases he'
    rw [Point256.ladder, Point256.ladderStep, hd1]
    simp only [Res.bind_ok, ha]
    have hs : ∀ t : Point256, t = d ∨ t = q ∨ t = e ∨ t = Point256.INFTY ∨ (∃ x y z, t = { x := x, y := y, z := ofF z }) → t.z.Canon := by
      rintro t (rfl | rfl | rfl | rfl | ⟨x, y, z, rfl⟩)
      · exact hd2
      · exact hq
      · exact he2
      · show ZERO.Canon
        rw [ZERO_eq]; exact canon_ofF _
      · exact canon_ofF _
    rcases hb b (List.mem_cons_self ..) with rfl | rfl
    · rw [Point256.choose_zero]
      exact ih (fun b hb' => hb b (List.mem_cons_of_mem _ hb')) d hd2
    · rw [Point256.choose_one]
      refine ih (fun b hb' => hb b (List.mem_cons_of_mem _ hb')) _ (hs _ ?_)
      split
      · exact Or.inl rfl
      · split
        · exact Or.inr (Or.inl rfl)
        · split
          · split
            · exact Or.inr (Or.inr (Or.inl rfl))
            · exact Or.inr (Or.inr (Or.inr (Or.inl rfl)))
          · exact Or.inr (Or.inr (Or.inr (Or.inr ⟨_, _, _, rfl⟩)))

theorem multScalar_returns (m : Mode) (q : Point256) (hq : q.z.Canon) (n : Int256) : ∃ r, q.multScalar m n = .ok r := by
  obtain ⟨r, hr, _⟩ := ladder_returns m q hq _ (Point256.ladderBits_bit n) Point256.INFTY (by
    show ZERO.Canon
    rw [ZERO_eq]; exact canon_ofF _)
  exact ⟨r, hr⟩

theorem toPoint_canon (q : NPoint256) : q.toPoint.z.Canon := by
  show ONE.Canon
  rw [ONE_eq]; exact canon_ofF _

/-- The tail of `compute_keys` returns for every pair of coordinates; the public key depends on the scalar only. -/
theorem keysFrom_returns (m : Mode) (q : NPoint256) (x : Int256) :
    ∃ pms, keysFrom m q.toPoint x = .ok (65 :: Spec.P256.encode (Point256.effective x • Spec.P256.G), pms) ∧ pms.length = 32 := by
  obtain ⟨g, hg, hgr⟩ := Point256.multScalar_rep m _ _ Point256.G_rep x
  obtain ⟨gn, hgn, he, _⟩ := normalize_rep m g _ hgr
  obtain ⟨s, hs⟩ := multScalar_returns m q.toPoint (toPoint_canon q) x
  have hsn := Point256.normalize_eq m s
  have hl := encode_length (Point256.effective x • Spec.P256.G)
  have hnew : TlsVec.new 1 255 (Spec.P256.encode (Point256.effective x • Spec.P256.G)) =
      .ok ⟨Spec.P256.encode (Point256.effective x • Spec.P256.G)⟩ := by
    rw [TlsVec.new_ok_iff, sizes_bytes, hl]; exact ⟨rfl, by decide, by decide⟩
  refine ⟨_, ?_, toBytes_length (ofF (s.x.toF / s.z.toF ^ 2))⟩
  rw [keysFrom]
  simp only [hg, Res.bind_ok, hgn, hs, hsn, he, hnew]
  simp only [TlsItem.write, write_bytes, Res.bind_ok, sizes_bytes, hl]
  rfl

end Ecdhe
end Husk
