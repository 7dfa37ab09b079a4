import Verif.Props.Record
/-! C15 (nonces), C16 (k-th record) and C17 (integrity of application data): statements about whole histories. -/

namespace Husk

open Spec TlsReader

/-- What a user of `TlsWriter` can call. -/
inductive WriteOp
  | setEncryptor (e : Encryptor)
  | setIv (iv : Bytes)
  | handshake (h : Handshake)
  | alert (a : Alert)
  | changeCipherSpec
  | applicationData (b : Bytes)

def WriteOp.act (m : Mode) : WriteOp → St TlsWriter Unit
  | .setEncryptor e => TlsWriter.setEncryptor e
  | .setIv iv => TlsWriter.setIv iv
  | .handshake h => TlsWriter.writeHandshake m h
  | .alert a => TlsWriter.writeAlert m a
  | .changeCipherSpec => TlsWriter.writeChangeCipherSpec m
  | .applicationData b => TlsWriter.writeApplicationData m b

/-- A history of calls: after an error the caller goes on, after a panic the writer is gone. -/
def runWrites (m : Mode) : List WriteOp → TlsWriter → List (Res Unit) × TlsWriter
  | [], w => ([], w)
  | op :: ops, w =>
    match (op.act m).run w with
    | (.ok (), w') => let (rs, w'') := runWrites m ops w'; (.ok () :: rs, w'')
    | (.err k, w') => let (rs, w'') := runWrites m ops w'; (.err k :: rs, w'')
    | (.panic, w') => ([.panic], w')
    | (.diverge, w') => ([.diverge], w')

/-- One sealed record: its type, plaintext and ciphertext. -/
structure Item where
  ty : ContentType
  plain : Bytes
  out : Bytes

/-- The encryptor call that RFC 7905 and RFC 5246 require for the `i`-th record. -/
def Item.call (iv : Option Bytes) (i : Nat) (x : Item) : SealCall :=
  ⟨nonceFor iv (UInt64.ofNat i), x.plain, recordAad i x.ty.toU8 3 3 x.plain.length, x.out⟩

/-- The calls are those for the items, numbered from 0. -/
def callsOf (iv : Option Bytes) (items : List Item) : List SealCall := items.mapIdx fun i x => x.call iv i

/-- The application data among the items. -/
def appItems (items : List Item) : Bytes := (items.filter fun x => x.ty = .ApplicationDataTy).flatMap (·.plain)

theorem appItems_append (a b : List Item) : appItems (a ++ b) = appItems a ++ appItems b := by simp [appItems]

theorem callsOf_append (iv : Option Bytes) (items : List Item) (x : Item) : callsOf iv (items ++ [x]) = callsOf iv items ++ [x.call iv items.length] := by
  simp [callsOf, List.mapIdx_append]

/-- The state of a writer with encryption that has never failed. -/
structure InStep (w : TlsWriter) (items : List Item) : Prop where
  calls : w.calls = callsOf w.iv items
  count : w.writeCount = UInt64.ofNat items.length
  enc : w.encryptor.isSome

theorem ofNat_toNat_lt {n : Nat} (h : n < 2 ^ 64) : (UInt64.ofNat n).toNat = n := by
  simp only [UInt64.toNat_ofNat']; omega

theorem callsOf_length (iv : Option Bytes) (items : List Item) : (callsOf iv items).length = items.length := by simp [callsOf]

theorem Wrote.call {w w' : TlsWriter} {rec : Record} {c : Bytes} {items : List Item} (h : InStep w items) (hw : w.sealed rec = .ok c)
    (hb : items.length < 2 ^ 64) (hv : rec.verMajor = 3 ∧ rec.verMinor = 3) :
    (w.logged rec c).calls = callsOf w.iv (items ++ [⟨rec.contentType, rec.fragment, c⟩]) := by
  unfold TlsWriter.logged
  obtain ⟨e, he⟩ := Option.isSome_iff_exists.mp h.enc
  rw [he]
  simp only
  rw [callsOf_append, h.calls, TlsWriter.nonce_eq, TlsWriter.ad_eq, h.count, hv.1, hv.2, ofNat_toNat_lt hb]
  rfl

theorem InStep.wrote {w w' : TlsWriter} {rec : Record} {c : Bytes} {items : List Item} (h : InStep w items) (hw : w.Wrote rec c w')
    (hb : w'.calls.length < 2 ^ 64) (hv : rec.verMajor = 3 ∧ rec.verMinor = 3) : InStep w' (items ++ [⟨rec.contentType, rec.fragment, c⟩]) := by
  have hlen : items.length < 2 ^ 64 := by
    rw [hw.calls] at hb
    unfold TlsWriter.logged at hb
    obtain ⟨e, he⟩ := Option.isSome_iff_exists.mp h.enc
    rw [he] at hb
    simp only [List.length_append, List.length_singleton, h.calls, callsOf_length] at hb
    omega
  refine ⟨?_, ?_, by rw [hw.encryptor]; exact h.enc⟩
  · rw [hw.calls, hw.iv, Wrote.call h hw.seal_ok hlen hv (w' := w')]
  · rw [hw.count, h.count, List.length_append, UInt64.ofNat_add]
    rfl

theorem Sent.calls_le {w w' : TlsWriter} {sent} (h : TlsWriter.Sent w sent w') : w.calls.length ≤ w'.calls.length := by
  induction h with
  | nil => exact Nat.le_refl _
  | cons hw _ ih =>
    refine Nat.le_trans ?_ ih
    rw [hw.calls]
    unfold TlsWriter.logged
    split <;> simp

theorem InStep.sent {w w' : TlsWriter} {sent : List (Record × Bytes)} {items : List Item} (h : InStep w items) (hs : w.Sent sent w')
    (hb : w'.calls.length < 2 ^ 64) (hv : ∀ rc ∈ sent, rc.1.verMajor = 3 ∧ rc.1.verMinor = 3) :
    InStep w' (items ++ sent.map fun rc => ⟨rc.1.contentType, rc.1.fragment, rc.2⟩) := by
  induction hs generalizing items with
  | nil => simpa using h
  | @cons s s1 s' rec c recs hw hrest ih =>
    have := ih (h.wrote hw (Nat.lt_of_le_of_lt (Sent.calls_le hrest) hb) (hv (rec, c) (by simp))) hb (fun rc hrc => hv rc (List.mem_cons_of_mem _ hrc))
    simpa using this

/-- Writing records that may fail: the state after a failure. -/
theorem writeChunks_fail {m : Mode} {ty : ContentType} {cs : List Bytes} (hcs : ∀ c ∈ cs, c.length ≤ RECORD_MAX_LEN) {w w' : TlsWriter} {x : Res Unit}
    (h : (TlsWriter.writeChunks m ty cs).run w = (x, w')) (hx : x ≠ .ok ()) :
    ∃ sent w1, w.Sent sent w1 ∧ (∃ c, (sent.map (·.1)) = TlsWriter.recordsOf ty (cs.take sent.length) ∧ c ∈ cs ∧
      (w'.calls = w1.calls ∨ ∃ out, w1.sealed ⟨ty, 3, 3, c⟩ = .ok out ∧ w'.calls = (w1.logged ⟨ty, 3, 3, c⟩ out).calls)) ∧
      w'.iv = w1.iv ∧ w'.encryptor = w1.encryptor := by
  induction cs generalizing w with
  | nil =>
    simp only [TlsWriter.writeChunks, St.pure_run, Prod.mk.injEq] at h
    exact absurd h.1.symm hx
  | cons c cs ih =>
    have hr : Record.new ty TLS_VERSION.1 TLS_VERSION.2 c = .ok ⟨ty, TLS_VERSION.1, TLS_VERSION.2, c⟩ :=
      Record.new_ok _ _ _ _ (hcs c (by simp))
    rw [TlsWriter.writeChunks, St.bind_of_ok (a := ⟨ty, TLS_VERSION.1, TLS_VERSION.2, c⟩) (s' := w) (by rw [hr]; rfl)] at h
    rw [St.bind_run] at h
    rcases hw : (TlsWriter.writeRecord m ⟨ty, TLS_VERSION.1, TLS_VERSION.2, c⟩).run w with ⟨y, w1⟩
    rw [hw] at h
    have fail : ∀ {y}, (TlsWriter.writeRecord m ⟨ty, TLS_VERSION.1, TLS_VERSION.2, c⟩).run w = (y, w') → y ≠ .ok () → _ := fun hw hy =>
      TlsWriter.writeRecord_fail hw hy
    have done : ∀ {y : Res Unit}, (TlsWriter.writeRecord m ⟨ty, TLS_VERSION.1, TLS_VERSION.2, c⟩).run w = (y, w') → y ≠ .ok () →
      ∃ sent w1, w.Sent sent w1 ∧ (∃ c', (sent.map (·.1)) = TlsWriter.recordsOf ty ((c :: cs).take sent.length) ∧ c' ∈ c :: cs ∧
      (w'.calls = w1.calls ∨ ∃ out, w1.sealed ⟨ty, 3, 3, c'⟩ = .ok out ∧ w'.calls = (w1.logged ⟨ty, 3, 3, c'⟩ out).calls)) ∧
      w'.iv = w1.iv ∧ w'.encryptor = w1.encryptor := by
      intro y hw hy
      obtain ⟨_, h2, h3, h4, _⟩ := TlsWriter.writeRecord_fail hw hy
      exact ⟨[], w, .nil, ⟨c, rfl, by simp, h4⟩, h3, h2⟩
    cases y with
    | ok u =>
      obtain ⟨out, hwr⟩ := TlsWriter.writeRecord_inv hw
      obtain ⟨sent, w2, h1, ⟨c', h2, h3, h4⟩, h5⟩ := ih (fun c hc => hcs c (List.mem_cons_of_mem _ hc)) h
      refine ⟨_ :: sent, w2, .cons hwr h1, ⟨c', ?_, List.mem_cons_of_mem _ h3, h4⟩, h5⟩
      rw [List.map_cons, h2, List.length_cons, List.take_succ_cons]
      rfl
    | err k =>
      simp only [Prod.mk.injEq] at h
      obtain ⟨rfl, rfl⟩ := h
      exact done hw (by simp)
    | panic =>
      simp only [Prod.mk.injEq] at h
      obtain ⟨rfl, rfl⟩ := h
      exact done hw (by simp)
    | diverge =>
      simp only [Prod.mk.injEq] at h
      obtain ⟨rfl, rfl⟩ := h
      exact done hw (by simp)

/-- Every operation that writes is some `write_data`, or fails without touching the writer. -/
inductive IsWrite (m : Mode) : WriteOp → TlsWriter → Res Unit × TlsWriter → Prop
  | data {op w ty d} : (ty = .ApplicationDataTy ∧ op = .applicationData d) ∨ (ty ≠ .ApplicationDataTy ∧ ∀ b, op ≠ .applicationData b) →
      IsWrite m op w ((TlsWriter.writeData m ty d).run w)
  | refused {op w x} : x ≠ .ok () → IsWrite m op w (x, w)
  | setEncryptor {e w} : w.encryptor = none → IsWrite m (.setEncryptor e) w (.ok (), { w with encryptor := some e, writeCount := 0 })
  | setIv {iv w} : w.iv = none → IsWrite m (.setIv iv) w (.ok (), { w with iv := some iv })

theorem act_cases (m : Mode) (op : WriteOp) (w : TlsWriter) : IsWrite m op w ((op.act m).run w) := by
  cases op with
  | setEncryptor e =>
    simp only [WriteOp.act, TlsWriter.setEncryptor]
    cases h : w.encryptor with
    | none => exact .setEncryptor h
    | some e' => exact .refused (by simp)
  | setIv iv =>
    simp only [WriteOp.act, TlsWriter.setIv]
    cases h : w.iv with
    | none => exact .setIv h
    | some e' => exact .refused (by simp)
  | handshake h =>
    simp only [WriteOp.act, TlsWriter.writeHandshake, St.bind_run, St.lift_run]
    cases TlsItem.write h with
    | ok d => exact .data (Or.inr ⟨by simp, by simp⟩)
    | err k => exact .refused (by simp)
    | panic => exact .refused (by simp)
    | diverge => exact .refused (by simp)
  | alert a =>
    simp only [WriteOp.act, TlsWriter.writeAlert, St.bind_run, St.lift_run]
    cases TlsItem.write a with
    | ok d => exact .data (Or.inr ⟨by simp, by simp⟩)
    | err k => exact .refused (by simp)
    | panic => exact .refused (by simp)
    | diverge => exact .refused (by simp)
  | changeCipherSpec => exact .data (Or.inr ⟨by simp, by simp⟩)
  | applicationData b =>
    simp only [WriteOp.act, TlsWriter.writeApplicationData, St.bind_run, St.get_run]
    split
    · exact .refused (by simp)
    · exact .data (Or.inl ⟨rfl, rfl⟩)

/-- The application data handed to a history. -/
def appWritten (ops : List WriteOp) : Bytes := ops.flatMap fun
  | .applicationData b => b
  | _ => []

/-- The state after a history without failures: nothing sealed yet, or the sealed records are numbered 0, 1, 2, … and carry the data. -/
def Good (w : TlsWriter) (app : Bytes) : Prop :=
  (w.encryptor = none ∧ w.calls = [] ∧ app = []) ∨ ∃ items, InStep w items ∧ appItems items = app

theorem recordsOf_versions {ty cs} {sent : List (Record × Bytes)} (h : sent.map (·.1) = TlsWriter.recordsOf ty cs) :
    ∀ rc ∈ sent, rc.1.verMajor = 3 ∧ rc.1.verMinor = 3 := by
  intro rc hrc
  have : rc.1 ∈ TlsWriter.recordsOf ty cs := by rw [← h]; exact List.mem_map.mpr ⟨rc, hrc, rfl⟩
  obtain ⟨c, _, he⟩ := List.mem_map.mp this
  rw [← he]
  exact ⟨rfl, rfl⟩

theorem appItems_of_sent {ty : ContentType} {cs : List Bytes} {sent : List (Record × Bytes)} (h : sent.map (·.1) = TlsWriter.recordsOf ty cs) :
    appItems (sent.map fun rc => ⟨rc.1.contentType, rc.1.fragment, rc.2⟩) = if ty = .ApplicationDataTy then cs.flatten else [] := by
  induction cs generalizing sent with
  | nil =>
    cases sent with
    | nil => split <;> rfl
    | cons => simp [TlsWriter.recordsOf] at h
  | cons c cs ih =>
    cases sent with
    | nil => simp [TlsWriter.recordsOf] at h
    | cons rc sent =>
      simp only [TlsWriter.recordsOf, List.map_cons, List.cons.injEq] at h
      have := ih (sent := sent) h.2
      rw [List.map_cons]
      simp only [appItems, List.filter_cons, h.1] at this ⊢
      split
      · rename_i hty
        rw [if_pos (by simpa using hty)] at this ⊢
        rw [List.flatMap_cons, this, List.flatten_cons]
      · rename_i hty
        rw [if_neg (by simpa using hty)] at this ⊢
        exact this

/-- A `set_iv` is allowed as long as nothing was sealed. -/
def IvFirst (op : WriteOp) (w : TlsWriter) : Prop := ∀ iv, op = .setIv iv → w.calls = []

theorem Sent.plain_calls {w w' : TlsWriter} {sent} (h : TlsWriter.Sent w sent w') (he : w.encryptor = none) : w'.calls = w.calls := by
  induction h with
  | nil => rfl
  | cons hw _ ih =>
    rw [ih (by rw [hw.encryptor, he]), hw.calls, TlsWriter.logged, he]

theorem Good.step {m : Mode} {op : WriteOp} {w w' : TlsWriter} {app : Bytes} (hg : Good w app) (h : (op.act m).run w = (.ok (), w')) (hiv : IvFirst op w)
    (hb : w'.calls.length < 2 ^ 64) : Good w' (app ++ appWritten [op]) := by
  have hc := act_cases m op w
  rw [h] at hc
  generalize hy : ((.ok (), w') : Res Unit × TlsWriter) = y at hc
  cases hc with
  | @data _ _ ty d hty =>
    obtain ⟨sent, hsent, hmap⟩ := TlsWriter.writeData_inv hy.symm
    have happ : appItems (sent.map fun rc => ⟨rc.1.contentType, rc.1.fragment, rc.2⟩) = appWritten [op] := by
      rw [appItems_of_sent hmap]
      rcases hty with ⟨h1, h2⟩ | ⟨h1, h2⟩
      · rw [if_pos h1, h2, chunks_flatten (by decide)]; simp [appWritten]
      · rw [if_neg h1]
        cases op with
        | applicationData b => exact absurd rfl (h2 b)
        | _ => rfl
    rcases hg with ⟨h1, h2, h3⟩ | ⟨items, h1, h2⟩
    · left
      have hop : appWritten [op] = [] := by
        rcases hty with ⟨_, h5⟩ | ⟨_, h5⟩
        · -- application data needs an encryptor
          rw [h5] at h
          simp [WriteOp.act, TlsWriter.writeApplicationData, St.bind_run, St.get_run, h1, St.panic_run] at h
        · cases op with
          | applicationData b => exact absurd rfl (h5 b)
          | _ => rfl
      exact ⟨by rw [hsent.same.1, h1], by rw [Sent.plain_calls hsent h1, h2], by rw [h3, hop]; rfl⟩
    · right
      exact ⟨_, h1.sent hsent hb (recordsOf_versions hmap), by rw [appItems_append, h2, happ]⟩
  | refused hx => simp only [Prod.mk.injEq] at hy; exact absurd hy.1.symm hx
  | @setEncryptor e _ he =>
    simp only [Prod.mk.injEq, true_and] at hy
    subst hy
    rcases hg with ⟨h1, h2, h3⟩ | ⟨items, h1, h2⟩
    · right
      exact ⟨[], ⟨h2, rfl, rfl⟩, by rw [h3]; rfl⟩
    · rw [Option.isSome_iff_exists.mp h1.enc |>.choose_spec] at he; cases he
  | @setIv iv _ hi =>
    simp only [Prod.mk.injEq, true_and] at hy
    subst hy
    have hcalls := hiv iv rfl
    rcases hg with ⟨h1, h2, h3⟩ | ⟨items, h1, h2⟩
    · left; exact ⟨h1, h2, by rw [h3]; rfl⟩
    · right
      have hnil : items = [] := by
        have := congrArg List.length h1.calls
        rw [hcalls, callsOf_length] at this
        exact List.length_eq_zero_iff.mp this.symm
      subst hnil
      exact ⟨[], ⟨hcalls, h1.count, h1.enc⟩, by rw [h2]; simp [appWritten]⟩

theorem act_calls_le (m : Mode) (op : WriteOp) (w : TlsWriter) : w.calls.length ≤ ((op.act m).run w).2.calls.length := by
  have hc := act_cases m op w
  generalize (op.act m).run w = y at hc
  cases hc with
  | @data _ _ ty d hty =>
    rcases hr : (TlsWriter.writeData m ty d).run w with ⟨x, w'⟩
    have fail : x ≠ .ok () → w.calls.length ≤ w'.calls.length := by
      intro hx
      obtain ⟨sent, w1, h1, ⟨c, _, _, h2⟩, _⟩ := writeChunks_fail (TlsWriter.chunk_bound d) hr hx
      have := Sent.calls_le h1
      rcases h2 with h2 | ⟨out, _, h2⟩
      · rw [h2]; exact this
      · rw [h2]
        refine Nat.le_trans this ?_
        unfold TlsWriter.logged
        split <;> simp
    cases x with
    | ok u =>
      obtain ⟨sent, h1, _⟩ := TlsWriter.writeData_inv hr
      exact Sent.calls_le h1
    | err k => exact fail (by simp)
    | panic => exact fail (by simp)
    | diverge => exact fail (by simp)
  | refused => exact Nat.le_refl _
  | setEncryptor => exact Nat.le_refl _
  | setIv => exact Nat.le_refl _

theorem runWrites_calls_le (m : Mode) (ops : List WriteOp) (w : TlsWriter) : w.calls.length ≤ (runWrites m ops w).2.calls.length := by
  induction ops generalizing w with
  | nil => exact Nat.le_refl _
  | cons op ops ih =>
    have h := act_calls_le m op w
    simp only [runWrites]
    rcases hr : (op.act m).run w with ⟨x, w1⟩
    rw [hr] at h
    cases x with
    | ok u => exact Nat.le_trans h (ih w1)
    | err k => exact Nat.le_trans h (ih w1)
    | panic => exact h
    | diverge => exact h

/-- `set_iv` is called only while nothing has been sealed (as src/client.rs does). -/
def IvBeforeData (m : Mode) (ops : List WriteOp) (w : TlsWriter) : Prop :=
  ∀ pre iv post, ops = pre ++ .setIv iv :: post → (runWrites m pre w).2.calls = []

/-- All calls but possibly the last one succeeded. -/
def OnlyLastFails (rs : List (Res Unit)) : Prop := ∀ r ∈ rs.dropLast, r = .ok ()

theorem runWrites_good {m : Mode} (ops : List WriteOp) {w : TlsWriter} {app : Bytes} (hg : Good w app) (hiv : IvBeforeData m ops w)
    (hb : (runWrites m ops w).2.calls.length < 2 ^ 64) (hok : ∀ r ∈ (runWrites m ops w).1, r = .ok ()) :
    Good (runWrites m ops w).2 (app ++ appWritten ops) := by
  induction ops generalizing w app with
  | nil => simpa [runWrites, appWritten] using hg
  | cons op ops ih =>
    simp only [runWrites] at hb hok ⊢
    rcases hr : (op.act m).run w with ⟨x, w1⟩
    rw [hr] at hb hok
    cases x with
    | ok u =>
      have h1 := hg.step hr (fun iv he => hiv [] iv ops (by rw [he]; rfl)) (Nat.lt_of_le_of_lt (runWrites_calls_le m ops w1) hb)
      have h2 := ih h1 (by
        intro pre iv post he
        have := hiv (op :: pre) iv post (by rw [he]; rfl)
        simpa [runWrites, hr] using this) hb (fun r h => hok r (List.mem_cons_of_mem _ h))
      have e : app ++ appWritten [op] ++ appWritten ops = app ++ appWritten (op :: ops) := by simp [appWritten]
      rw [e] at h2
      exact h2
    | err k => have := hok (.err k) (by simp); cases this
    | panic => have := hok .panic (by simp); cases this
    | diverge => have := hok .diverge (by simp); cases this

/-- After one more operation, which may fail in any way, the calls are still numbered 0, 1, 2, …. -/
theorem act_numbered {m : Mode} {op : WriteOp} {w : TlsWriter} {app : Bytes} (hg : Good w app) (hiv : IvFirst op w)
    (hb : ((op.act m).run w).2.calls.length < 2 ^ 64) : ∃ items, ((op.act m).run w).2.calls = callsOf ((op.act m).run w).2.iv items := by
  rcases hr : (op.act m).run w with ⟨x, w'⟩
  rw [hr] at hb
  show ∃ items, w'.calls = callsOf w'.iv items
  by_cases hx : x = .ok ()
  · subst hx
    rcases hg.step hr hiv hb with ⟨_, h2, _⟩ | ⟨items, h1, _⟩
    · exact ⟨[], h2⟩
    · exact ⟨items, h1.calls⟩
  · have hc := act_cases m op w
    rw [hr] at hc
    generalize hy : ((x, w') : Res Unit × TlsWriter) = y at hc
    cases hc with
    | @data _ _ ty d hty =>
      obtain ⟨sent, w1, h1, ⟨c, h2, h3, h4⟩, h5, h6⟩ := writeChunks_fail (TlsWriter.chunk_bound d) hy.symm hx
      rcases hg with ⟨g1, g2, _⟩ | ⟨items, g1, _⟩
      · refine ⟨[], ?_⟩
        have : w'.calls = [] := by
          have e1 : w1.encryptor = none := by rw [h1.same.1, g1]
          rcases h4 with h4 | ⟨out, _, h4⟩
          · rw [h4, Sent.plain_calls h1 g1, g2]
          · rw [h4, TlsWriter.logged, e1]; simp only; rw [Sent.plain_calls h1 g1, g2]
        exact this
      · have hle : w1.calls.length ≤ w'.calls.length := by
          rcases h4 with h4 | ⟨out, _, h4⟩
          · rw [h4]
          · rw [h4]; unfold TlsWriter.logged; split <;> simp
        have g2 := g1.sent h1 (Nat.lt_of_le_of_lt hle hb) (recordsOf_versions h2)
        rcases h4 with h4 | ⟨out, h7, h4⟩
        · exact ⟨_, by rw [h4, h5]; exact g2.calls⟩
        · refine ⟨(items ++ sent.map fun rc => ⟨rc.1.contentType, rc.1.fragment, rc.2⟩) ++ [⟨ty, c, out⟩], ?_⟩
          rw [h4, h5]
          refine Wrote.call (w' := w') g2 h7 ?_ ⟨rfl, rfl⟩
          have := congrArg List.length g2.calls
          rw [callsOf_length] at this
          exact Nat.lt_of_le_of_lt (Nat.le_trans (Nat.le_of_eq this.symm) hle) hb
    | refused _ =>
      simp only [Prod.mk.injEq] at hy
      obtain ⟨rfl, rfl⟩ := hy
      rcases hg with ⟨g1, g2, _⟩ | ⟨items, g1, _⟩
      · exact ⟨[], g2⟩
      · exact ⟨items, g1.calls⟩
    | setEncryptor => simp only [Prod.mk.injEq] at hy; exact absurd hy.1 hx
    | setIv => simp only [Prod.mk.injEq] at hy; exact absurd hy.1 hx

theorem runWrites_numbered {m : Mode} (ops : List WriteOp) {w : TlsWriter} {app : Bytes} (hg : Good w app) (hiv : IvBeforeData m ops w)
    (hb : (runWrites m ops w).2.calls.length < 2 ^ 64) (hok : OnlyLastFails (runWrites m ops w).1) :
    ∃ items, (runWrites m ops w).2.calls = callsOf (runWrites m ops w).2.iv items := by
  induction ops generalizing w app with
  | nil =>
    rcases hg with ⟨_, h2, _⟩ | ⟨items, h1, _⟩
    · exact ⟨[], h2⟩
    · exact ⟨items, h1.calls⟩
  | cons op ops ih =>
    simp only [runWrites] at hb hok ⊢
    rcases hr : (op.act m).run w with ⟨x, w1⟩
    have hnum := act_numbered (m := m) (op := op) hg (fun iv he => hiv [] iv ops (by rw [he]; rfl))
    rw [hr] at hb hok hnum
    cases x with
    | ok u =>
      have h1 := hg.step hr (fun iv he => hiv [] iv ops (by rw [he]; rfl)) (Nat.lt_of_le_of_lt (runWrites_calls_le m ops w1) hb)
      refine ih h1 (by
        intro pre iv post he
        have := hiv (op :: pre) iv post (by rw [he]; rfl)
        simpa [runWrites, hr] using this) hb ?_
      intro r h
      refine hok r ?_
      simp only
      cases hrs : (runWrites m ops w1).1 with
      | nil => rw [hrs] at h; simp at h
      | cons a l =>
        rw [hrs] at h
        rw [List.dropLast_cons_of_ne_nil (by simp)]
        exact List.mem_cons_of_mem _ h
    | err k =>
      simp only at hb hok ⊢
      cases ops with
      | nil => exact hnum hb
      | cons op2 ops =>
        exfalso
        have hne : (runWrites m (op2 :: ops) w1).1 ≠ [] := by
          simp only [runWrites]
          rcases (op2.act m).run w1 with ⟨y, w2⟩
          cases y <;> simp
        have := hok (.err k) (by rw [List.dropLast_cons_of_ne_nil hne]; simp)
        cases this
    | panic => exact hnum hb
    | diverge => exact hnum hb

theorem callsOf_getElem? {iv : Option Bytes} {items : List Item} {i : Nat} {c : SealCall} (h : (callsOf iv items)[i]? = some c) :
    ∃ x, items[i]? = some x ∧ c = x.call iv i := by
  rw [callsOf, List.getElem?_mapIdx] at h
  cases hx : items[i]? with
  | none => rw [hx] at h; cases h
  | some x => rw [hx] at h; cases h; exact ⟨x, rfl, rfl⟩

theorem callsOf_nodup (iv : Option Bytes) (items : List Item) (hb : items.length < 2 ^ 64) : ((callsOf iv items).map (·.nonce)).Nodup := by
  have hlen : (callsOf iv items).length = items.length := callsOf_length iv items
  apply List.pairwise_iff_getElem.mpr
  intro i j hi hj hij e
  simp only [List.length_map, hlen] at hi hj
  simp only [List.getElem_map, callsOf, List.getElem_mapIdx, Item.call] at e
  have := nonceFor_inj e
  have := congrArg UInt64.toNat this
  rw [ofNat_toNat_lt (by omega), ofNat_toNat_lt (by omega)] at this
  omega

/-- C15, the part that holds: in every history of operations on a fresh `TlsWriter` in which no operation but the last one failed (and with fewer
than 2^64 encryptor calls, and the IV set before data is sealed), no two encryptor calls use the same nonce. Missing: histories that go on
after a failed write (`C15_reuse_after_failure`). -/
theorem C15_nonces_distinct_partial (m : Mode) (wr : Writer) (ops : List WriteOp) (hiv : IvBeforeData m ops (TlsWriter.new wr))
    (hb : (runWrites m ops (TlsWriter.new wr)).2.calls.length < 2 ^ 64) (hok : OnlyLastFails (runWrites m ops (TlsWriter.new wr)).1) :
    ((runWrites m ops (TlsWriter.new wr)).2.calls.map (·.nonce)).Nodup := by
  obtain ⟨items, h⟩ := runWrites_numbered ops (Or.inl ⟨rfl, rfl, rfl⟩ : Good (TlsWriter.new wr) []) hiv hb hok
  rw [h] at hb ⊢
  rw [callsOf_length] at hb
  exact callsOf_nodup _ _ hb

/-- C16 over a history: the `i`-th encryptor call (from 0) uses the nonce and additional data for `i`, for every history in which no operation
but the last one failed. -/
theorem C16_kth_record (m : Mode) (wr : Writer) (ops : List WriteOp) (hiv : IvBeforeData m ops (TlsWriter.new wr))
    (hb : (runWrites m ops (TlsWriter.new wr)).2.calls.length < 2 ^ 64) (hok : OnlyLastFails (runWrites m ops (TlsWriter.new wr)).1)
    (iv : Bytes) (hset : (runWrites m ops (TlsWriter.new wr)).2.iv = some iv) (hl : iv.length = 12) (i : Nat) (c : SealCall)
    (hc : (runWrites m ops (TlsWriter.new wr)).2.calls[i]? = some c) :
    ∃ ty : ContentType, c.nonce = recordNonce iv i ∧ c.ad = recordAad i ty.toU8 3 3 c.plain.length := by
  obtain ⟨items, h⟩ := runWrites_numbered ops (Or.inl ⟨rfl, rfl, rfl⟩ : Good (TlsWriter.new wr) []) hiv hb hok
  rw [h, callsOf_length] at hb
  rw [h] at hc
  obtain ⟨x, hx, rfl⟩ := callsOf_getElem? hc
  have hi : i < items.length := by
    rcases Nat.lt_or_ge i items.length with h | h
    · exact h
    · rw [List.getElem?_eq_none h] at hx; cases hx
  refine ⟨x.ty, ?_, rfl⟩
  rw [hset]
  show xorIv _ iv = _
  rw [xorIv_spec _ _ hl, ofNat_toNat_lt (by omega)]

/-- A non-trivial history meeting the hypotheses, and its nonces. -/
example : let ops := [WriteOp.changeCipherSpec, .setEncryptor ⟨fun _ p _ => .ok p⟩, .setIv (List.replicate 12 7), .applicationData [1], .applicationData [2, 3]]
    (runWrites .debug ops (TlsWriter.new {})).2.calls.map (·.nonce) = [List.replicate 12 7, List.replicate 11 7 ++ [6]] ∧
    OnlyLastFails (runWrites .debug ops (TlsWriter.new {})).1 ∧ IvBeforeData .debug ops (TlsWriter.new {}) := by
  refine ⟨by decide +kernel, ?_, ?_⟩
  · have h : (runWrites .debug [WriteOp.changeCipherSpec, .setEncryptor ⟨fun _ p _ => .ok p⟩, .setIv (List.replicate 12 7), .applicationData [1], .applicationData [2, 3]] (TlsWriter.new {})).1
      = [.ok (), .ok (), .ok (), .ok (), .ok ()] := by decide +kernel
    rw [OnlyLastFails, h]
    decide
  · intro pre iv post h
    match pre, h with
    | [], h => cases h
    | [_], h => cases h
    | [a, b], h => cases h; decide +kernel
    | [_, _, _], h => cases h
    | [_, _, _, _], h => cases h
    | _ :: _ :: _ :: _ :: _ :: l, h => simp at h

theorem writeData_single (m : Mode) (ty : ContentType) (b : UInt8) (w : TlsWriter) : (TlsWriter.writeData m ty [b]).run w =
    (TlsWriter.writeRecord m ⟨ty, 3, 3, [b]⟩).run w := by
  have h1 : chunks RECORD_MAX_LEN [b] = [[b]] := rfl
  rw [TlsWriter.writeData, h1, TlsWriter.writeChunks, St.bind_of_ok (a := ⟨ty, 3, 3, [b]⟩) (s' := w) rfl, St.bind_run]
  rcases (TlsWriter.writeRecord m ⟨ty, 3, 3, [b]⟩).run w with ⟨x, w'⟩
  cases x <;> rfl

/-- C15 is false: after a failed write the next one uses the same nonce again, for another plaintext. For every key and IV, with the cipher of
the crate: the transport fails once, the caller goes on. -/
theorem C15_reuse_after_failure (m : Mode) (key iv : Bytes) (hk : key.length = 32) (b1 b2 : UInt8) :
    ∃ c1 c2, let ops := [WriteOp.setEncryptor (Encryptor.chacha m key), .setIv iv, .applicationData [b1], .applicationData [b2]]
      (runWrites m ops (TlsWriter.new { faults := [some 0] })).1 = [.ok (), .ok (), .err .IoFailure, .ok ()] ∧
      (runWrites m ops (TlsWriter.new { faults := [some 0] })).2.calls = [c1, c2] ∧ c1.nonce = c2.nonce ∧ c1.plain = [b1] ∧ c2.plain = [b2] := by
  have hE : ENC_RECORD_MAX_LEN = 18432 := rfl
  let w0 : TlsWriter := { writer := { faults := [some 0] }, encryptor := some (Encryptor.chacha m key), iv := some iv }
  obtain ⟨o1, e1, l1, -⟩ := C37_roundtrip m m key w0.nonce [b1] (w0.ad ⟨.ApplicationDataTy, 3, 3, [b1]⟩) hk
    (by rw [TlsWriter.nonce_eq, nonceFor_length]) (by simp)
  let w1 : TlsWriter := { w0 with writer := {}, calls := [⟨w0.nonce, [b1], w0.ad ⟨.ApplicationDataTy, 3, 3, [b1]⟩, o1⟩] }
  obtain ⟨o2, e2, l2, -⟩ := C37_roundtrip m m key w1.nonce [b2] (w1.ad ⟨.ApplicationDataTy, 3, 3, [b2]⟩) hk
    (by rw [TlsWriter.nonce_eq, nonceFor_length]) (by simp)
  have s1 : w0.sealed ⟨.ApplicationDataTy, 3, 3, [b1]⟩ = .ok o1 := e1
  have s2 : w1.sealed ⟨.ApplicationDataTy, 3, 3, [b2]⟩ = .ok o2 := e2
  have r1 : (TlsWriter.writeRecord m ⟨.ApplicationDataTy, 3, 3, [b1]⟩).run w0 = (.err .IoFailure, w1) := by
    rw [TlsWriter.writeRecord_run, s1]
    simp only
    rw [if_neg (by rw [l1, hE]; simp)]
    rfl
  obtain ⟨w2, r2, hw⟩ := TlsWriter.writeRecord_ok (m := m) s2 (by rw [l2, hE]; simp) rfl (by decide : (0 : UInt64).toNat + 1 < 2 ^ 64)
  refine ⟨⟨w0.nonce, [b1], w0.ad ⟨.ApplicationDataTy, 3, 3, [b1]⟩, o1⟩, ⟨w1.nonce, [b2], w1.ad ⟨.ApplicationDataTy, 3, 3, [b2]⟩, o2⟩, ?_⟩
  have a1 : ((WriteOp.applicationData [b1]).act m).run w0 = (.err .IoFailure, w1) := by
    rw [← r1, ← writeData_single]; rfl
  have a2 : ((WriteOp.applicationData [b2]).act m).run w1 = (.ok (), w2) := by
    rw [← r2, ← writeData_single]; rfl
  have hrun : runWrites m [WriteOp.setEncryptor (Encryptor.chacha m key), .setIv iv, .applicationData [b1], .applicationData [b2]]
      (TlsWriter.new { faults := [some 0] }) = ([.ok (), .ok (), .err .IoFailure, .ok ()], w2) := by
    have e : runWrites m [WriteOp.setEncryptor (Encryptor.chacha m key), .setIv iv, .applicationData [b1], .applicationData [b2]]
      (TlsWriter.new { faults := [some 0] }) =
      let (rs, w) := runWrites m [.applicationData [b1], .applicationData [b2]] w0; (.ok () :: .ok () :: rs, w) := rfl
    rw [e]
    simp only [runWrites, a1, a2]
  refine ⟨by rw [hrun], by rw [hrun]; exact hw.calls, rfl, rfl, rfl⟩

/-! ### C17: integrity of application data -/

/-- The results of any number of `read_application_data` calls, errors included. -/
def readApp (m : Mode) : Nat → TlsReader → List (Res Bytes) × TlsReader
  | 0, s => ([], s)
  | n + 1, s =>
    let (r, s) := (readApplicationData m).run s
    let (rs, s) := readApp m n s
    (r :: rs, s)

theorem readApp_accepts (m : Mode) (n : Nat) (s : TlsReader) :
    ∃ recs, TlsReader.Accepts s recs (readApp m n s).2 ∧ appOf recs = (readApp m n s).1.flatMap delivered := by
  induction n generalizing s with
  | zero => exact ⟨[], .nil (List.suffix_refl _) rfl rfl rfl, rfl⟩
  | succ n ih =>
    obtain ⟨r1, h1, h2⟩ := readApplicationData_accepts (rfl : (readApplicationData m).run s = (((readApplicationData m).run s).1, ((readApplicationData m).run s).2))
    obtain ⟨r2, h3, h4⟩ := ih ((readApplicationData m).run s).2
    exact ⟨r1 ++ r2, h1.trans h3, by rw [appOf_append, h2, h4]; rfl⟩

theorem recordAad_ty {k : Nat} {a a' : UInt8} {x y x' y' : UInt8} {n n' : Nat} (h : recordAad k a x y n = recordAad k a' x' y' n') : a = a' := by
  have e : ∀ a x y n, recordAad k a x y n = beBytes 8 k ++ (a :: x :: y :: beBytes 2 n) := by intro a x y n; simp [recordAad]
  rw [e, e] at h
  have := List.append_cancel_left h
  exact (List.cons.inj this).1

/-- A decryptor that opens only what is in the list of calls of the other end's encryptor. -/
def Ideal (d : Decryptor) (calls : List SealCall) : Prop := ∀ n c ad p, d.decrypt n c ad = .ok p → ⟨n, p, ad, c⟩ ∈ calls

/-- The records a reader accepts are the records sealed by the other end, in order, from the current number on. -/
theorem accepts_items {iv : Option Bytes} {items : List Item} (hb : items.length < 2 ^ 64) {s s' : TlsReader} {recs : List Record} (h : TlsReader.Accepts s recs s')
    (hiv : s.iv = iv) (d : Decryptor) (hd : s.decryptor = some d) (hid : Ideal d (callsOf iv items)) (hk : s.readCount.toNat ≤ items.length) :
    recs.map (fun r => (r.contentType, r.fragment)) <+: (items.drop s.readCount.toNat).map fun x => (x.ty, x.plain) := by
  induction h with
  | nil => exact List.nil_prefix
  | @cons s s1 s' ty a b f rec recs _ _ hu hd1 hc1 hiv1 _ ih =>
    unfold TlsReader.unprotect at hu
    rw [hd] at hu
    simp only at hu
    split at hu
    · cases hu
    · obtain ⟨p, h1, h2⟩ := Res.bind_eq_ok.mp hu
      split at h2
      · cases h2
      · rename_i hp
        rw [Record.new_ok _ _ _ _ (by omega)] at h2
        cases h2
        have hmem := hid _ _ _ _ h1
        obtain ⟨i, hi⟩ := List.getElem?_of_mem hmem
        obtain ⟨x, hx, he⟩ := callsOf_getElem? hi
        have hlt : i < items.length := by
          rcases Nat.lt_or_ge i items.length with h | h
          · exact h
          · rw [List.getElem?_eq_none h] at hx; cases hx
        simp only [Item.call, SealCall.mk.injEq] at he
        obtain ⟨e1, e2, e3, _⟩ := he
        rw [TlsReader.nonce_eq, hiv] at e1
        have e1 := congrArg UInt64.toNat (nonceFor_inj e1)
        rw [ofNat_toNat_lt (by omega)] at e1
        rw [TlsReader.ad_eq, e1] at e3
        have e4 := ContentType.toU8_inj (recordAad_ty e3)
        have h1' : (1 : UInt64).toNat = 1 := rfl
        have hrc : s1.readCount.toNat = i + 1 := by rw [hc1, UInt64.toNat_add, h1', e1]; omega
        have ih := ih (hiv1.trans hiv) (hd1.trans hd) (by omega)
        rw [hrc] at ih
        rw [e1, List.drop_eq_getElem_cons hlt, List.map_cons, List.map_cons]
        have hxi : items[i] = x := by rw [List.getElem?_eq_getElem hlt] at hx; exact Option.some.inj hx
        rw [hxi]
        simp only [e4, e2]
        exact (List.prefix_cons_inj _).mpr ih

theorem appOf_prefix {recs : List Record} {items : List Item} (h : recs.map (fun r => (r.contentType, r.fragment)) <+: items.map fun x => (x.ty, x.plain)) :
    appOf recs <+: appItems items := by
  induction recs generalizing items with
  | nil => exact List.nil_prefix
  | cons r recs ih =>
    cases items with
    | nil => simp at h
    | cons x items =>
      rw [List.map_cons, List.map_cons, List.cons_prefix_cons] at h
      obtain ⟨h1, h2⟩ := h
      simp only [Prod.mk.injEq] at h1
      have := ih h2
      simp only [appOf, appItems, List.filter_cons, h1.1] at this ⊢
      split
      · rw [List.flatMap_cons, List.flatMap_cons, h1.2]
        exact (List.prefix_append_right_inj _).mpr this
      · exact this

/-- C17: the peer writes with a fresh `TlsWriter` in any history without failures; the reader holds a decryptor that opens only what the peer's
encryptor sealed, the same IV, and starts at number 0. Whatever script of bytes and interruptions the attacker makes of the stream, what any number of
`read_application_data` calls delivers is a prefix of the application data the peer wrote, also when calls in between fail. -/
theorem C17_delivered_is_prefix (m m' : Mode) (wr : Writer) (ops : List WriteOp) (hiv : IvBeforeData m ops (TlsWriter.new wr))
    (hok : ∀ r ∈ (runWrites m ops (TlsWriter.new wr)).1, r = .ok ()) (hb : (runWrites m ops (TlsWriter.new wr)).2.calls.length < 2 ^ 64)
    (d : Decryptor) (hid : Ideal d (runWrites m ops (TlsWriter.new wr)).2.calls) (attack : Reader) (buf : HandshakeBuffer) (n : Nat) :
    (readApp m' n { reader := attack, decryptor := some d, readCount := 0, handshakeBuffer := buf, iv := (runWrites m ops (TlsWriter.new wr)).2.iv }).1.flatMap delivered
      <+: appWritten ops := by
  obtain ⟨recs, ha, happ⟩ := readApp_accepts m' n { reader := attack, decryptor := some d, readCount := 0, handshakeBuffer := buf, iv := (runWrites m ops (TlsWriter.new wr)).2.iv }
  rw [← happ]
  have hg := runWrites_good ops (Or.inl ⟨rfl, rfl, rfl⟩ : Good (TlsWriter.new wr) []) hiv hb hok
  simp only [List.nil_append] at hg
  obtain ⟨items, hcalls, hitems⟩ : ∃ items, (runWrites m ops (TlsWriter.new wr)).2.calls = callsOf (runWrites m ops (TlsWriter.new wr)).2.iv items ∧
      appItems items = appWritten ops := by
    rcases hg with ⟨_, h2, h3⟩ | ⟨items, h1, h2⟩
    · exact ⟨[], h2, by rw [h3]; rfl⟩
    · exact ⟨items, h1.calls, h2⟩
  rw [hcalls, callsOf_length] at hb
  rw [hcalls] at hid
  rw [← hitems]
  exact appOf_prefix (accepts_items hb ha rfl d rfl hid (Nat.zero_le _))

/-- Ideal decryptors exist: look the ciphertext up in the list of calls. -/
example (calls : List SealCall) : Ideal ⟨fun n c ad => match calls.find? (fun x => x.nonce = n ∧ x.out = c ∧ x.ad = ad) with
    | some x => .ok x.plain
    | none => .err .BadRecordMac, 16⟩ calls := by
  intro n c ad p h
  simp only at h
  split at h
  · rename_i x hx
    have h1 := List.find?_some hx
    simp only [decide_eq_true_eq] at h1
    cases h
    obtain ⟨rfl, rfl, rfl⟩ := h1
    exact List.mem_of_find?_eq_some hx
  · cases h

/-- The whole of the data is delivered when the stream is left alone: the prefix is not always the trivial one. -/
example : (readApp .debug 2 { reader := ⟨[.data [23, 3, 3, 0, 1, 5, 23, 3, 3, 0, 2, 6, 7]]⟩, decryptor := some ⟨fun _ c _ => .ok c, 0⟩ }).1.flatMap delivered = [5, 6, 7] := by
  decide +kernel

end Husk
