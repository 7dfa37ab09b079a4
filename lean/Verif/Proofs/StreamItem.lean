import Verif.Model.StreamItem
import Verif.Proofs.Transport
import Verif.Proofs.TlsItem
/-! Reading and writing items on a transport is reading and writing them in memory. -/

namespace Husk

open Spec (Sym takeBytes ofBytes)

/-! ### reading -/

/-- What is left of the stream after a read in memory that ended with this result and this rest. -/
def leftOver (tail : List Sym) (rest : Bytes) : Res α → List Sym
  | .err .IoFailure => tail.tail
  | _ => ofBytes rest ++ tail

/-- On a stream of bytes that ends (or, if `full`, stops) after `b`, `q` does what `p` does on `b`. -/
def SimRead (full : Bool) (p : P α) (q : St Reader α) : Prop :=
  ∀ (r : Reader) (b : Bytes) (tail : List Sym), (tail = [] ∨ (full = true ∧ ∃ l, tail = .stop :: l)) → r.stream = ofBytes b ++ tail →
    ∃ r', q.run r = ((p.run b).1, r') ∧ r'.stream = leftOver tail (p.run b).2 (p.run b).1

namespace SimRead

theorem weaken {p : P α} {q : St Reader α} (h : SimRead true p q) (full : Bool) : SimRead full p q := by
  intro r b tail ht
  exact h r b tail (ht.imp_right fun h => ⟨rfl, h.2⟩)

theorem pure (full : Bool) (a : α) : SimRead full (Pure.pure a) (Pure.pure a) := by
  intro r b tail _ hs
  exact ⟨r, rfl, hs⟩

theorem lift (full : Bool) (x : Res α) (hx : x ≠ .err .IoFailure) : SimRead full (St.lift x) (St.lift x) := by
  intro r b tail _ hs
  refine ⟨r, rfl, ?_⟩
  rw [St.lift_run]
  cases x with
  | err k => cases k <;> first | exact hs | exact absurd rfl hx
  | _ => exact hs

theorem err (full : Bool) (k : TlsErrorKind) (hk : k ≠ .IoFailure) : SimRead full (St.err k : P α) (St.err k) :=
  lift full (.err k) (by simpa using hk)

theorem bind {full : Bool} {p : P α} {q : St Reader α} {p' : α → P β} {q' : α → St Reader β} (h : SimRead full p q)
    (h' : ∀ a, SimRead full (p' a) (q' a)) : SimRead full (p >>= p') (q >>= q') := by
  intro r b tail ht hs
  obtain ⟨r1, e1, s1⟩ := h r b tail ht hs
  rcases e : p.run b with ⟨x, rest⟩
  rw [e] at e1 s1
  cases x with
  | ok a =>
    rw [St.bind_of_ok e, St.bind_of_ok e1]
    exact h' a r1 rest tail ht s1
  | err k =>
    rw [St.bind_of_err e, St.bind_of_err e1]
    refine ⟨r1, rfl, ?_⟩
    cases k <;> exact s1
  | panic =>
    rw [St.bind_of_panic e, St.bind_of_panic e1]
    exact ⟨r1, rfl, s1⟩
  | diverge =>
    rw [St.bind_of_diverge e, St.bind_of_diverge e1]
    exact ⟨r1, rfl, s1⟩

theorem ite {full : Bool} {c : Prop} [Decidable c] {p p' : P α} {q q' : St Reader α} (h : SimRead full p q) (h' : SimRead full p' q') :
    SimRead full (if c then p else p') (if c then q else q') := by
  split
  · exact h
  · exact h'

theorem readExact (n : Nat) : SimRead true (Item.readExact n) (Reader.readExact n) := by
  intro r b tail ht hs
  by_cases hn : n ≤ b.length
  · have hb : b = b.take n ++ b.drop n := (List.take_append_drop n b).symm
    obtain ⟨r', h1, h2⟩ := Reader.readExact_ok (n := n) (r := r) (b := b.take n) (l := ofBytes (b.drop n) ++ tail) (by simp; omega)
      (by rw [hs, ← List.append_assoc]; congr 1; rw [ofBytes, ofBytes, ofBytes, ← List.map_append, ← hb])
    refine ⟨r', ?_, ?_⟩
    · rw [h1]; simp [Item.readExact, hn]
    · rw [h2]; simp [Item.readExact, hn, leftOver]
  · obtain ⟨r', h1, h2⟩ := Reader.readExact_spec n r
    have : takeBytes n r.stream = (none, tail.tail) := by
      obtain ⟨k, rfl⟩ : ∃ k, n = b.length + k := ⟨n - b.length, by omega⟩
      obtain ⟨j, rfl⟩ : ∃ j, k = j + 1 := ⟨k - 1, by omega⟩
      rw [hs, Spec.takeBytes_append]
      rcases ht with rfl | ⟨_, l, rfl⟩ <;> rfl
    rw [this] at h1 h2
    refine ⟨r', ?_, ?_⟩
    · rw [h1]; simp [Item.readExact, hn, Reader.resOf]
    · rw [h2]; simp [Item.readExact, hn, leftOver]

theorem of_eq {full : Bool} {p p' : P α} {q : St Reader α} (h : SimRead full p q) (hp : ∀ b, p.run b = p'.run b) : SimRead full p' q := by
  intro r b tail ht hs
  rw [← hp]
  exact h r b tail ht hs

theorem readToEnd : SimRead false Item.readToEnd Reader.readToEnd := by
  intro r b tail ht hs
  have ht : tail = [] := by simpa using ht
  subst ht
  rw [List.append_nil] at hs
  have key : ∀ (es : List Ev) (b acc : Bytes), Reader.stream ⟨es⟩ = ofBytes b → Reader.readToEndLoop es acc = (.ok (acc ++ b), ⟨[]⟩) := by
    intro es
    induction es with
    | nil =>
      intro b acc h
      cases b with
      | nil => simp [Reader.readToEndLoop]
      | cons x b => simp [Reader.stream, ofBytes] at h
    | cons e es ih =>
      intro b acc h
      cases e with
      | data d =>
        cases d with
        | nil => cases b <;> simp [Reader.stream, Ev.syms, ofBytes] at h
        | cons y d =>
          rw [Reader.stream_data _ (by simp)] at h
          obtain ⟨c, rfl⟩ : ∃ c, b = (y :: d) ++ c := by
            have aux : ∀ (x b : Bytes) (l : List Sym), ofBytes x ++ l = ofBytes b → ∃ c, b = x ++ c := by
              intro x
              induction x with
              | nil => intro b l _; exact ⟨b, rfl⟩
              | cons a x ih =>
                intro b l hl
                cases b with
                | nil => simp [ofBytes] at hl
                | cons a' b =>
                  simp only [ofBytes, List.map_cons, List.cons_append, List.cons.injEq, Sym.byte.injEq] at hl
                  obtain ⟨c, hc⟩ := ih b l hl.2
                  exact ⟨c, by rw [hc, hl.1]; rfl⟩
            exact aux _ b _ h
          have h2 : Reader.stream ⟨es⟩ = ofBytes c := by
            rw [show ofBytes ((y :: d) ++ c) = ofBytes (y :: d) ++ ofBytes c from by simp [ofBytes]] at h
            exact List.append_cancel_left h
          rw [Reader.readToEndLoop, if_neg (by simp), ih c _ h2, List.append_assoc]
      | fail i => cases b <;> simp [Reader.stream, Ev.syms, ofBytes] at h
  refine ⟨⟨[]⟩, ?_, rfl⟩
  show Reader.readToEndLoop r.script [] = _
  rw [key r.script b [] hs]
  rfl

end SimRead

namespace StreamItem

theorem toNat_u24 (a b c : UInt8) : ((a.toUInt32 <<< 16) ||| (b.toUInt32 <<< 8) ||| c.toUInt32).toNat = a.toNat * 65536 + b.toNat * 256 + c.toNat := by
  have ha := a.toNat_lt
  have hb := b.toNat_lt
  have hc := c.toNat_lt
  simp only [UInt32.toNat_or, UInt32.toNat_shiftLeft, UInt8.toNat_toUInt32, Nat.shiftLeft_eq]
  rw [show (16 : UInt32).toNat % 32 = 16 from rfl, show (8 : UInt32).toNat % 32 = 8 from rfl]
  rw [Nat.mod_eq_of_lt (by omega), Nat.mod_eq_of_lt (by omega)]
  rw [← Nat.shiftLeft_eq, ← Nat.shiftLeft_eq b.toNat]
  rw [Nat.or_assoc, ← Nat.shiftLeft_add_eq_or_of_lt (a := b.toNat) (i := 8) (b := c.toNat) (by omega)]
  rw [← Nat.shiftLeft_add_eq_or_of_lt (i := 16) (by rw [Nat.shiftLeft_eq]; omega)]
  simp only [Nat.shiftLeft_eq]
  omega

theorem beNat_single (a : UInt8) : beNat [a] = a.toNat := by simp [beNat, leNat]

theorem getD_one {b : Bytes} (h : b.length = 1) : (b.getD 0 0).toNat = beNat b := by
  match b, h with
  | [a], _ => simp [beNat_single]

/-- Reading a single byte. -/
theorem sim_u8 : SimRead true (do let n ← Item.readNum 1; return UInt8.ofNat n) Reader.readU8 := by
  have h := SimRead.bind (SimRead.readExact 1) (fun b => SimRead.pure true (b.getD 0 0))
  refine h.of_eq fun b => ?_
  cases b with
  | nil => rfl
  | cons a b => simp [Item.readNum, Item.readExact, St.bind_run, St.pure_run, beNat_single]

theorem sim_be (k : Nat) {β : Type} (f : Nat → β) (g : β → Nat) (hg : ∀ n, n < 256 ^ k → g (f n) = n) :
    SimRead true (Item.readNum k) (do let x ← (do let b ← Reader.readExact k; return f (Util.toBe k (leNat b)) : St Reader β); return g x) := by
  have h := SimRead.bind (SimRead.bind (SimRead.readExact k) (fun b => SimRead.pure true (f (Util.toBe k (leNat b))))) (fun x => SimRead.pure true (g x))
  refine h.of_eq fun b => ?_
  by_cases hn : k ≤ b.length
  · have hl : (b.take k).length = k := by simp; omega
    have hb : Util.toBe k (leNat (b.take k)) = beNat (b.take k) := by
      unfold Util.toBe
      have := leBytes_leNat (b.take k)
      rw [hl] at this
      rw [this, beNat]
    have hlt := beNat_lt (b.take k)
    rw [hl] at hlt
    simp only [Item.readNum, Item.readExact, St.bind_run, St.pure_run, hn, if_true, hb]
    rw [hg _ hlt]
  · simp [Item.readNum, Item.readExact, St.bind_run, hn]

/-- The widths `try_read_num!` and `try_write_num!` know. -/
def Width (k : Nat) : Prop := k = 1 ∨ k = 2 ∨ k = 3 ∨ k = 4 ∨ k = 8

theorem sim_num {k : Nat} (hk : Width k) : SimRead true (Item.readNum k) (readNum k) := by
  rcases hk with rfl | rfl | rfl | rfl | rfl
  · have h := SimRead.bind sim_u8 (fun x => SimRead.pure true x.toNat)
    refine h.of_eq fun b => ?_
    cases b with
    | nil => rfl
    | cons a b => simp [Item.readNum, Item.readExact, St.bind_run, St.pure_run, beNat_single]
  · exact sim_be 2 UInt16.ofNat UInt16.toNat (fun n hn => by simp; omega)
  · have h := SimRead.bind sim_u8 fun n1 => SimRead.bind sim_u8 fun n2 => SimRead.bind sim_u8 fun n3 =>
      SimRead.pure true ((n1.toUInt32 <<< 16) ||| (n2.toUInt32 <<< 8) ||| n3.toUInt32).toNat
    refine h.of_eq fun b => ?_
    match b with
    | [] => rfl
    | [_] => rfl
    | [_, _] => rfl
    | x :: y :: z :: b =>
      simp only [Item.readNum, Item.readExact, St.bind_run, St.pure_run, List.length_cons, List.take_succ_cons, List.take_zero, List.drop_succ_cons,
        List.drop_zero, beNat_single, UInt8.ofNat_toNat, Nat.le_add_left, if_true, toNat_u24]
      simp [beNat, leNat]
      omega
  · exact sim_be 4 UInt32.ofNat UInt32.toNat (fun n hn => by simp; omega)
  · exact sim_be 8 UInt64.ofNat UInt64.toNat (fun n hn => by simp; omega)

end StreamItem

/-! ### writing -/

/-- What a write on a transport may do, given what the write in memory yields: after `Ok` exactly those bytes were sent, otherwise some of the
first of them; without faults of the transport the results agree. -/
def SimWrite (p : Res Bytes) (q : St Writer Unit) : Prop :=
  ∀ w : Writer, ∃ (res : Res Unit) (sent : Bytes) (fs : List (Option Nat)), q.run w = (res, { wire := w.wire ++ sent, faults := fs }) ∧
    (match res with
      | .ok _ => p = .ok sent
      | .err k => (k = .IoFailure ∧ ∀ b, p = .ok b → sent <+: b) ∨ p = .err k
      | _ => False) ∧
    (w.faults = [] → fs = [] ∧ ∀ k, res = .err k → p = .err k)

namespace SimWrite

theorem pure : SimWrite (.ok []) (Pure.pure ()) := by
  intro w
  exact ⟨.ok (), [], w.faults, by simp [St.pure_run], rfl, fun h => ⟨h, by simp⟩⟩

theorem err (k : TlsErrorKind) : SimWrite (.err k) (St.err k) := by
  intro w
  exact ⟨.err k, [], w.faults, by simp [St.err_run], .inr rfl, fun h => ⟨h, by simp⟩⟩

theorem writeAll (b : Bytes) : SimWrite (.ok b) (Writer.writeAll b) := by
  intro w
  unfold Writer.writeAll
  dsimp only
  split
  · rename_i hb
    subst hb
    exact ⟨.ok (), [], w.faults, by simp, rfl, fun h => ⟨h, by simp⟩⟩
  · split
    · rename_i hf
      exact ⟨.ok (), b, [], by simp [hf], rfl, fun _ => ⟨rfl, by simp⟩⟩
    · rename_i fs hf
      exact ⟨.ok (), b, fs, rfl, rfl, fun h => by simp [hf] at h⟩
    · rename_i k fs hf
      refine ⟨.err .IoFailure, b.take k, fs, rfl, .inl ⟨rfl, ?_⟩, fun h => by simp [hf] at h⟩
      intro c hc
      rw [← Res.ok.inj hc]
      exact List.take_prefix k b

/-- The bytes of one item after those of another. -/
def seq (p p' : Res Bytes) : Res Bytes := do
  let x ← p
  let y ← p'
  return x ++ y

theorem seq_ok (p p' : Res Bytes) (b : Bytes) : seq p p' = .ok b ↔ ∃ x y, p = .ok x ∧ p' = .ok y ∧ b = x ++ y := by
  constructor
  · intro h
    obtain ⟨x, hx, h2⟩ := Res.bind_eq_ok.mp h
    obtain ⟨y, hy, h3⟩ := Res.bind_eq_ok.mp h2
    exact ⟨x, y, hx, hy, (Res.ok.inj h3).symm⟩
  · rintro ⟨x, y, rfl, rfl, rfl⟩
    rfl

theorem bind {p p' : Res Bytes} {q q' : St Writer Unit} (h : SimWrite p q) (h' : SimWrite p' q') : SimWrite (seq p p') (q >>= fun _ => q') := by
  intro w
  obtain ⟨res, sent, fs, e, hr, hf⟩ := h w
  cases res with
  | ok u =>
    change p = .ok sent at hr
    obtain ⟨res', sent', fs', e', hr', hf'⟩ := h' { wire := w.wire ++ sent, faults := fs }
    refine ⟨res', sent ++ sent', fs', by rw [St.bind_of_ok e, e', List.append_assoc], ?_, ?_⟩
    · cases res' with
      | ok u =>
        change p' = .ok sent' at hr'
        show seq p p' = _
        rw [hr, hr']; rfl
      | err k =>
        rcases hr' with ⟨hk, hb⟩ | hr'
        · left
          refine ⟨hk, fun b hb' => ?_⟩
          obtain ⟨x, y, h1, h2, rfl⟩ := (seq_ok _ _ _).mp hb'
          rw [hr] at h1
          rw [← Res.ok.inj h1]
          exact List.prefix_append_right_inj _ |>.mpr (hb y h2)
        · right
          rw [hr, hr']; rfl
      | panic => exact hr'.elim
      | diverge => exact hr'.elim
    · intro hw
      refine ⟨(hf' (hf hw).1).1, fun k hk => ?_⟩
      rw [hr, (hf' (hf hw).1).2 k hk]; rfl
  | err k =>
    refine ⟨.err k, sent, fs, St.bind_of_err e, ?_, fun hw => ⟨(hf hw).1, fun k' hk' => ?_⟩⟩
    · rcases hr with ⟨hk, hb⟩ | hr
      · left
        refine ⟨hk, fun b hb' => ?_⟩
        obtain ⟨x, y, h1, _, rfl⟩ := (seq_ok _ _ _).mp hb'
        exact (hb x h1).trans (List.prefix_append _ _)
      · right
        rw [hr]; rfl
    · have h1 := (hf hw).2 k rfl
      rw [h1, ← Res.err.inj hk']; rfl
  | panic => exact hr.elim
  | diverge => exact hr.elim

theorem be (k n : Nat) : SimWrite (.ok (beBytes k n)) (Writer.writeAll (Util.transmute k (Util.toBe k n))) := by
  rw [Util.toBe_transmute]
  exact writeAll _

end SimWrite

instance : LawfulMonad Res where
  map_const := rfl
  id_map x := by cases x <;> rfl
  seqLeft_eq x y := by cases x <;> cases y <;> rfl
  seqRight_eq x y := by cases x <;> cases y <;> rfl
  pure_seq x y := by cases y <;> rfl
  bind_pure_comp f x := by cases x <;> rfl
  bind_map f x := by cases f <;> rfl
  pure_bind x f := rfl
  bind_assoc x f g := by cases x <;> rfl

namespace StreamItem

theorem beBytes_mod (k n : Nat) : beBytes k (n % 256 ^ k) = beBytes k n := by
  unfold beBytes
  congr 1
  induction k generalizing n with
  | zero => rfl
  | succ k ih =>
    simp only [leBytes]
    congr 1
    · apply UInt8.toNat_inj.mp
      simp only [UInt8.toNat_ofNat']
      rw [Nat.pow_succ, Nat.mul_comm]
      exact Nat.mod_mul_right_mod _ _ _
    · rw [← ih (n / 256), ← ih (n % 256 ^ (k + 1) / 256), Nat.pow_succ, Nat.mul_comm, Nat.mod_mul_right_div_self, Nat.mod_mod]

theorem wsim_num {k : Nat} (hk : Width k) (n : Nat) : SimWrite (.ok (Item.writeNum k n)) (writeNum k n) := by
  rcases hk with rfl | rfl | rfl | rfl | rfl
  · have h := SimWrite.writeAll (Util.transmute 1 (UInt8.ofNat n).toNat)
    have e : Util.transmute 1 (UInt8.ofNat n).toNat = Item.writeNum 1 n := by
      simp only [Util.transmute, leBytes, Item.writeNum, beBytes, List.reverse_cons, List.reverse_nil, List.nil_append, UInt8.ofNat_toNat]
    show SimWrite _ (Writer.writeAll (Util.transmute 1 (UInt8.ofNat n).toNat))
    rwa [← e]
  · have h := SimWrite.be 2 (UInt16.ofNat n).toNat
    rw [show Res.ok (beBytes 2 (UInt16.ofNat n).toNat) = Res.ok (Item.writeNum 2 n) from by
      rw [Item.writeNum, ← beBytes_mod 2 n]; simp] at h
    exact h
  · have h1 : ∀ x : UInt8, SimWrite (.ok [x]) (Writer.writeU8 x) := fun x => by
      have h := SimWrite.writeAll (Util.transmute 1 x.toNat)
      rw [show Res.ok (Util.transmute 1 x.toNat) = Res.ok [x] from by simp [Util.transmute, leBytes]] at h
      exact h
    have h := SimWrite.bind (h1 (UInt32.ofNat n >>> 16).toUInt8) (SimWrite.bind (h1 (UInt32.ofNat n >>> 8).toUInt8) (h1 (UInt32.ofNat n).toUInt8))
    have e : SimWrite.seq (.ok [(UInt32.ofNat n >>> 16).toUInt8]) (SimWrite.seq (.ok [(UInt32.ofNat n >>> 8).toUInt8]) (.ok [(UInt32.ofNat n).toUInt8])) =
        .ok (Item.writeNum 3 n) := by
      show Res.ok [_, _, _] = _
      congr 1
      simp only [Item.writeNum, beBytes, leBytes, List.reverse_cons, List.reverse_nil, List.nil_append, List.cons_append]
      congr 1
      · apply UInt8.toNat_inj.mp
        simp only [UInt32.toNat_toUInt8, UInt32.toNat_shiftRight, UInt32.toNat_ofNat', Nat.shiftRight_eq_div_pow, UInt8.toNat_ofNat',
          Nat.div_div_eq_div_mul]
        rw [show (16 : UInt32).toNat % 32 = 16 from rfl]
        omega
      · congr 1
        · apply UInt8.toNat_inj.mp
          simp only [UInt32.toNat_toUInt8, UInt32.toNat_shiftRight, UInt32.toNat_ofNat', Nat.shiftRight_eq_div_pow, UInt8.toNat_ofNat']
          rw [show (8 : UInt32).toNat % 32 = 8 from rfl]
          omega
        · congr 1
          apply UInt8.toNat_inj.mp
          simp only [UInt32.toNat_toUInt8, UInt32.toNat_ofNat', UInt8.toNat_ofNat']
          omega
    rw [e] at h
    exact h
  · have h := SimWrite.be 4 (UInt32.ofNat n).toNat
    rw [show Res.ok (beBytes 4 (UInt32.ofNat n).toNat) = Res.ok (Item.writeNum 4 n) from by
      rw [Item.writeNum, ← beBytes_mod 4 n]; simp] at h
    exact h
  · have h := SimWrite.be 8 (UInt64.ofNat n).toNat
    rw [show Res.ok (beBytes 8 (UInt64.ofNat n).toNat) = Res.ok (Item.writeNum 8 n) from by
      rw [Item.writeNum, ← beBytes_mod 8 n]; simp] at h
    exact h

end StreamItem

/-! ### every item -/

/-- Items that can be followed by others: on any reader. -/
class ClosedStream (α : Type) [TlsItem α] [StreamItem α] : Prop where
  sim : SimRead true (TlsItem.read (α := α)) readFrom
  wsim : ∀ x : α, SimWrite (TlsItem.write x) (writeTo x)

/-- Items that may read to the end: on readers that do not fail. -/
class TailStream (α : Type) [TlsItem α] [StreamItem α] : Prop where
  sim : SimRead false (TlsItem.read (α := α)) readFrom
  wsim : ∀ x : α, SimWrite (TlsItem.write x) (writeTo x)

instance [TlsItem α] [StreamItem α] [ClosedStream α] : TailStream α := ⟨ClosedStream.sim.weaken false, ClosedStream.wsim⟩

open StreamItem SimRead

theorem Res.seq_write (p p' : Res Bytes) : (do let x ← p; let y ← p'; return x ++ y) = SimWrite.seq p p' := rfl

instance : ClosedStream UInt8 where
  sim := (sim_num (.inl rfl)).bind fun _ => SimRead.pure true _
  wsim _ := wsim_num (.inl rfl) _

/-- Enums are one or two bytes wide. -/
class EnumWidth (α : Type) [TlsEnum α] : Prop where
  width : Width (TlsEnum.width α)

instance [TlsEnum α] [EnumWidth α] : ClosedStream α where
  sim := (sim_num EnumWidth.width).bind fun n => by
    cases TlsEnum.ofCode (α := α) n with
    | none => exact SimRead.err true _ (by simp)
    | some a => exact SimRead.pure true a
  wsim _ := wsim_num EnumWidth.width _

instance : EnumWidth AlertLevel := ⟨.inl rfl⟩
instance : EnumWidth AlertDescription := ⟨.inl rfl⟩
instance : EnumWidth HashAlgorithm := ⟨.inl rfl⟩
instance : EnumWidth SignatureAlgorithm := ⟨.inl rfl⟩
instance : EnumWidth CompressionMethod := ⟨.inl rfl⟩
instance : EnumWidth NamedCurve := ⟨.inr (.inl rfl)⟩
instance : EnumWidth ECPointFormat := ⟨.inl rfl⟩
instance : EnumWidth ClientCertificateType := ⟨.inl rfl⟩

instance : ClosedStream (TlsArray n) where
  sim := (SimRead.readExact n).bind fun _ => SimRead.pure true _
  wsim _ := SimWrite.writeAll _

namespace TlsVec

variable {α : Type} [TlsItem α] [StreamItem α] [ClosedStream α]

theorem sim_items (selfSize : Nat) : ∀ (fuel itemsSize : Nat) (acc : List α),
    SimRead true (readItems selfSize fuel itemsSize acc) (readItemsFrom selfSize fuel itemsSize acc) := by
  intro fuel
  induction fuel with
  | zero =>
    intro itemsSize acc
    rw [readItems.eq_def, readItemsFrom.eq_def]
    exact SimRead.ite (SimRead.lift true _ (by simp)) (SimRead.ite (SimRead.err true _ (by simp)) (SimRead.pure true _))
  | succ fuel ih =>
    intro itemsSize acc
    rw [readItems.eq_def, readItemsFrom.eq_def]
    exact SimRead.ite (ClosedStream.sim.bind fun item => ih _ _) (SimRead.ite (SimRead.err true _ (by simp)) (SimRead.pure true _))

theorem wsim_items (xs : List α) : SimWrite (writeItems xs) (writeItemsTo xs) := by
  induction xs with
  | nil => exact SimWrite.pure
  | cons x xs ih => exact (ClosedStream.wsim x).bind ih

theorem width_prefix (max : Nat) : Width (prefixLen max) := by
  unfold prefixLen Width
  split
  · exact .inl rfl
  · split
    · exact .inr (.inl rfl)
    · split
      · exact .inr (.inr (.inl rfl))
      · split
        · exact .inr (.inr (.inr (.inl rfl)))
        · exact .inr (.inr (.inr (.inr rfl)))

omit [StreamItem α] [ClosedStream α] in
theorem new_not_io (min max : Nat) (v : List α) : (new min max v : Res (TlsVec α min max)) ≠ .err .IoFailure := by
  unfold new
  dsimp only
  split
  · simp
  · split <;> simp

instance {min max : Nat} : ClosedStream (TlsVec α min max) where
  sim := (sim_num (width_prefix max)).bind fun n => (sim_items n n 0 []).bind fun items => SimRead.lift true _ (new_not_io _ _ _)
  wsim v := by
    have h := (wsim_num (width_prefix max) (sizes v.items)).bind (wsim_items v.items)
    exact h

end TlsVec

instance [TlsItem α] [StreamItem α] [ClosedStream α] : TailStream (Option α) where
  sim := by
    intro r b tail ht hs
    have ht' : tail = [] := by simpa using ht
    subst ht'
    obtain ⟨r1, e1, s1⟩ := SimRead.readToEnd r b [] (.inl rfl) hs
    have s1 : r1.stream = [] := s1
    have e1 : Reader.readToEnd.run r = (.ok b, r1) := e1
    have hp : Item.readToEnd.run b = (.ok b, []) := rfl
    simp only [TlsItem.read, readFrom]
    rw [St.bind_of_ok hp, St.bind_of_ok e1]
    by_cases hb : b.length = 0
    · rw [if_pos hb, if_pos hb]
      exact ⟨r1, rfl, s1⟩
    · rw [if_neg hb, if_neg hb]
      refine ⟨r1, ?_, ?_⟩
      · rw [St.bind_run, St.bind_run, St.lift_run, St.lift_run]
        cases ((TlsItem.read (α := α)).run b).1 <;> rfl
      · rw [s1, St.bind_run, St.lift_run]
        cases ((TlsItem.read (α := α)).run b).1 with
        | err k => cases k <;> rfl
        | _ => rfl
  wsim x := by
    cases x with
    | none => exact SimWrite.pure
    | some x => exact ClosedStream.wsim x

instance : ClosedStream DummyItem := ⟨SimRead.pure true _, fun _ => SimWrite.pure⟩

instance : TailStream ObscureData where
  sim := SimRead.readToEnd.bind fun _ => SimRead.pure false _
  wsim _ := SimWrite.writeAll _

/-- A structure of two items. -/
theorem ClosedStream.pair {β γ : Type} [TlsItem α] [StreamItem α] [ClosedStream α] [TlsItem β] [StreamItem β] [ClosedStream β]
    [TlsItem γ] [StreamItem γ] (mk : α → β → γ) (fst : γ → α) (snd : γ → β)
    (h1 : TlsItem.read (α := γ) = (do let x ← TlsItem.read; let y ← TlsItem.read; return mk x y))
    (h2 : readFrom (α := γ) = (do let x ← readFrom; let y ← readFrom; return mk x y))
    (h3 : ∀ z : γ, TlsItem.write z = SimWrite.seq (TlsItem.write (fst z)) (TlsItem.write (snd z)))
    (h4 : ∀ z : γ, writeTo z = (do writeTo (fst z); writeTo (snd z))) : ClosedStream γ where
  sim := by
    rw [h1, h2]
    exact ClosedStream.sim.bind fun x => ClosedStream.sim.bind fun y => SimRead.pure true _
  wsim z := by
    rw [h3, h4]
    exact (ClosedStream.wsim _).bind (ClosedStream.wsim _)

instance : ClosedStream Alert := .pair Alert.mk Alert.level Alert.description rfl rfl (fun _ => rfl) (fun _ => rfl)
instance : ClosedStream SignatureAndHashAlgorithm := .pair SignatureAndHashAlgorithm.mk _ _ rfl rfl (fun _ => rfl) (fun _ => rfl)
instance : ClosedStream DigitallySigned := .pair DigitallySigned.mk _ _ rfl rfl (fun _ => rfl) (fun _ => rfl)
instance : ClosedStream ProtocolVersion := .pair ProtocolVersion.mk _ _ rfl rfl (fun _ => rfl) (fun _ => rfl)

theorem writeU8_sim (x : UInt8) : SimWrite (.ok [x]) (Writer.writeU8 x) := by
  have h := SimWrite.writeAll (Util.transmute 1 x.toNat)
  rw [show Res.ok (Util.transmute 1 x.toNat) = Res.ok [x] from by simp [Util.transmute, leBytes]] at h
  exact h

instance : ClosedStream CipherSuite where
  sim := by
    have h := sim_u8.bind fun id1 => sim_u8.bind fun id2 =>
      (SimRead.ite (c := id1 = 0xcc ∧ id2 = 0xa8) (SimRead.pure true CipherSuite.TLS_ECDHE_RSA_WITH_CHACHA20_POLY1305_SHA256)
        (SimRead.pure true CipherSuite.UnknownCipherSuite))
    refine h.of_eq fun b => ?_
    match b with
    | [] => rfl
    | [_] => rfl
    | x :: y :: b =>
      simp only [TlsItem.read, Item.readNum, Item.readExact, St.bind_run, St.pure_run, List.length_cons, List.take_succ_cons, List.take_zero, List.drop_succ_cons,
        List.drop_zero, beNat_single, UInt8.ofNat_toNat, Nat.le_add_left, if_true]
      by_cases h : x = 0xcc ∧ y = 0xa8
      · rw [if_pos h, if_pos ⟨by rw [h.1]; rfl, by rw [h.2]; rfl⟩]
      · rw [if_neg h, if_neg (fun hh => h ⟨UInt8.toNat_inj.mp hh.1, UInt8.toNat_inj.mp hh.2⟩)]
  wsim x := by
    cases x with
    | TLS_ECDHE_RSA_WITH_CHACHA20_POLY1305_SHA256 => exact (writeU8_sim 0xcc).bind (writeU8_sim 0xa8)
    | UnknownCipherSuite => exact SimWrite.err _

theorem Extension.sim_body (α : Type) [TlsItem α] [StreamItem α] [ClosedStream α] (n : Nat) (mk : α → Extension) :
    SimRead true (Extension.readBody α n mk) (Extension.readBodyFrom α n mk) :=
  ClosedStream.sim.bind fun _ => SimRead.ite (SimRead.err true _ (by simp)) (SimRead.pure true _)

theorem Extension.wsim_body [TlsItem α] [StreamItem α] [ClosedStream α] (k : Nat) (x : α) :
    SimWrite (do let b ← TlsItem.write x; return Item.writeNum 2 k ++ Item.writeNum 2 (TlsItem.size x) ++ b) (Extension.writeBodyTo k x) := by
  have h := (wsim_num (.inr (.inl rfl)) k).bind ((wsim_num (.inr (.inl rfl)) (TlsItem.size x)).bind (ClosedStream.wsim x))
  have e : SimWrite.seq (.ok (Item.writeNum 2 k)) (SimWrite.seq (.ok (Item.writeNum 2 (TlsItem.size x))) (TlsItem.write x)) =
      (do let b ← TlsItem.write x; return Item.writeNum 2 k ++ Item.writeNum 2 (TlsItem.size x) ++ b) := by
    simp only [SimWrite.seq, Res.bind_ok]
    cases TlsItem.write x with
    | ok b => show Res.ok _ = Res.ok _; rw [List.append_assoc]
    | _ => rfl
  rw [e] at h
  exact h

instance : ClosedStream Extension where
  sim := (sim_num (.inr (.inl rfl))).bind fun _ => (sim_num (.inr (.inl rfl))).bind fun _ =>
    SimRead.ite (Extension.sim_body _ _ _) (SimRead.ite (Extension.sim_body _ _ _) (SimRead.ite (Extension.sim_body _ _ _)
      ((SimRead.readExact _).bind fun _ => SimRead.pure true _)))
  wsim x := by
    cases x with
    | elliptic_curves l => exact Extension.wsim_body 10 l
    | ec_point_formats l => exact Extension.wsim_body 11 l
    | signature_algorithms l => exact Extension.wsim_body 13 l
    | Unknown ty d =>
      have h := (wsim_num (.inr (.inl rfl)) ty.toNat).bind ((wsim_num (.inr (.inl rfl)) d.length).bind (SimWrite.writeAll d))
      have e : SimWrite.seq (.ok (Item.writeNum 2 ty.toNat)) (SimWrite.seq (.ok (Item.writeNum 2 d.length)) (.ok d)) =
          TlsItem.write (Extension.Unknown ty d) := by
        show Res.ok _ = Res.ok _
        rw [List.append_assoc]
      rw [e] at h
      exact h

instance : TailStream ClientHello where
  sim := TailStream.sim.bind fun _ => TailStream.sim.bind fun _ => TailStream.sim.bind fun _ => TailStream.sim.bind fun _ =>
    TailStream.sim.bind fun _ => TailStream.sim.bind fun _ => SimRead.pure false _
  wsim a := by
    have h := (TailStream.wsim a.clientVersion).bind ((TailStream.wsim a.random).bind ((TailStream.wsim a.sessionId).bind
      ((TailStream.wsim a.cipherSuites).bind ((TailStream.wsim a.compressionMethods).bind (TailStream.wsim a.extensions)))))
    have e : TlsItem.write a = SimWrite.seq (TlsItem.write a.clientVersion) (SimWrite.seq (TlsItem.write a.random) (SimWrite.seq (TlsItem.write a.sessionId)
        (SimWrite.seq (TlsItem.write a.cipherSuites) (SimWrite.seq (TlsItem.write a.compressionMethods) (TlsItem.write a.extensions))))) := by
      simp only [SimWrite.seq, bind_assoc, pure_bind]
      rfl
    rw [e]
    exact h

instance : TailStream ServerHello where
  sim := TailStream.sim.bind fun _ => TailStream.sim.bind fun _ => TailStream.sim.bind fun _ => TailStream.sim.bind fun _ =>
    TailStream.sim.bind fun _ => TailStream.sim.bind fun _ => SimRead.pure false _
  wsim a := by
    have h := (TailStream.wsim a.serverVersion).bind ((TailStream.wsim a.random).bind ((TailStream.wsim a.sessionId).bind
      ((TailStream.wsim a.cipherSuite).bind ((TailStream.wsim a.compressionMethod).bind (TailStream.wsim a.extensions)))))
    have e : TlsItem.write a = SimWrite.seq (TlsItem.write a.serverVersion) (SimWrite.seq (TlsItem.write a.random) (SimWrite.seq (TlsItem.write a.sessionId)
        (SimWrite.seq (TlsItem.write a.cipherSuite) (SimWrite.seq (TlsItem.write a.compressionMethod) (TlsItem.write a.extensions))))) := by
      simp only [SimWrite.seq, bind_assoc, pure_bind]
      rfl
    rw [e]
    exact h

instance : ClosedStream CertificateRequest where
  sim := ClosedStream.sim.bind fun _ => ClosedStream.sim.bind fun _ => ClosedStream.sim.bind fun _ => SimRead.pure true _
  wsim a := by
    have h := (ClosedStream.wsim a.certificateTypes).bind ((ClosedStream.wsim a.supportedSignatureAlgorithms).bind
      (ClosedStream.wsim a.certificateAuthorities))
    have e : TlsItem.write a = SimWrite.seq (TlsItem.write a.certificateTypes) (SimWrite.seq (TlsItem.write a.supportedSignatureAlgorithms)
        (TlsItem.write a.certificateAuthorities)) := by
      simp only [SimWrite.seq, bind_assoc, pure_bind]
      rfl
    rw [e]
    exact h

instance : ClosedStream EcParameters where
  sim := (sim_num (.inl rfl)).bind fun _ => SimRead.ite (ClosedStream.sim.bind fun _ => SimRead.pure true _) (SimRead.err true _ (by simp))
  wsim a := by
    cases a with
    | named_curve c => exact (wsim_num (.inl rfl) 3).bind (ClosedStream.wsim c)

instance : ClosedStream ServerEcdhParams := .pair ServerEcdhParams.mk _ _ rfl rfl (fun _ => rfl) (fun _ => rfl)
instance : ClosedStream EcdheServerKeyExchange := .pair EcdheServerKeyExchange.mk _ _ rfl rfl (fun _ => rfl) (fun _ => rfl)

namespace Handshake

theorem sim_body (α : Type) [TlsItem α] [StreamItem α] [TailStream α] (mk : α → Handshake) :
    SimRead false (readBody α mk) (readBodyFrom α mk) := TailStream.sim.bind fun _ => SimRead.pure false _

theorem sim_arm (ty : Nat) : SimRead false (readArm ty) (readArmFrom ty) :=
  .ite (sim_body _ _) (.ite (sim_body _ _) (.ite (sim_body _ _) (.ite (sim_body _ _) (.ite (sim_body _ _) (.ite (sim_body _ _)
    (.ite (sim_body _ _) (.ite (sim_body _ _) (.ite (sim_body _ _) (.err false _ (by simp))))))))))

theorem sim_end (h : Handshake) : SimRead false (checkEnd h) (checkEndFrom h) := by
  intro r b tail ht hs
  have ht' : tail = [] := by simpa using ht
  subst ht'
  obtain ⟨r1, e1, s1⟩ := sim_u8 r b [] (.inl rfl) hs
  unfold checkEnd checkEndFrom
  dsimp only
  rw [e1]
  cases b with
  | nil => exact ⟨r1, rfl, s1⟩
  | cons x b => exact ⟨r1, rfl, s1⟩

theorem wsim_body [TlsItem α] [StreamItem α] [TailStream α] (k : Nat) (x : α) : SimWrite (writeBody k x) (writeBodyTo k x) := by
  have h := (wsim_num (.inl rfl) k).bind ((wsim_num (.inr (.inr (.inl rfl))) (TlsItem.size x)).bind (TailStream.wsim x))
  have e : SimWrite.seq (.ok (Item.writeNum 1 k)) (SimWrite.seq (.ok (Item.writeNum 3 (TlsItem.size x))) (TlsItem.write x)) = writeBody k x := by
    unfold writeBody
    simp only [SimWrite.seq, Res.bind_ok]
    cases TlsItem.write x with
    | ok b => show Res.ok _ = Res.ok _; rw [List.append_assoc]
    | _ => rfl
  rw [e] at h
  exact h

end Handshake

instance : TailStream Handshake where
  sim := ((sim_num (.inl rfl)).weaken false).bind fun _ => ((sim_num (.inr (.inr (.inl rfl)))).weaken false).bind fun _ =>
    (Handshake.sim_arm _).bind fun h => Handshake.sim_end h
  wsim h := by
    cases h with
    | hello_request x => exact Handshake.wsim_body 0 x
    | client_hello x => exact Handshake.wsim_body 1 x
    | server_hello x => exact Handshake.wsim_body 2 x
    | certificate x => exact Handshake.wsim_body 11 x
    | server_key_exchange x => exact Handshake.wsim_body 12 x
    | certificate_request x => exact Handshake.wsim_body 13 x
    | server_hello_done x => exact Handshake.wsim_body 14 x
    | client_key_exchange x => exact Handshake.wsim_body 16 x
    | finished x => exact Handshake.wsim_body 20 x

end Husk
