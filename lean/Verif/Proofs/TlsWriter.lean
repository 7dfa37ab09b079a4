import Verif.Model.Tls
import Verif.Spec.Record
/-! How the record layer writes. -/

namespace Husk

open Spec

/-! ### Nonces and additional data -/

theorem leBytes_add (a b n : Nat) : leBytes (a + b) n = leBytes a n ++ leBytes b (n / 256 ^ a) := by
  induction a generalizing n with
  | zero => simp [leBytes]
  | succ a ih =>
    rw [Nat.succ_add, leBytes, ih, leBytes, List.cons_append, Nat.pow_succ, Nat.mul_comm, Nat.div_div_eq_div_mul]

theorem beBytes_pad (x : UInt64) : List.replicate 4 0 ++ beBytes 8 x.toNat = beBytes 12 x.toNat := by
  have h := leBytes_add 8 4 x.toNat
  have hx : x.toNat / 256 ^ 8 = 0 := Nat.div_eq_of_lt x.toNat_lt
  rw [hx] at h
  rw [beBytes, beBytes, h, List.reverse_append]
  rfl

theorem u64Be (x : UInt64) : Util.u64BeArray x = beBytes 8 x.toNat := Util.toBe_transmute 8 x.toNat

theorem be16_split (n : Nat) : [((UInt16.ofNat n) >>> 8).toUInt8, (UInt16.ofNat n).toUInt8] = beBytes 2 n := by
  simp only [beBytes, leBytes, List.reverse_cons, List.reverse_nil, List.nil_append, List.cons_append]
  congr 1
  · apply UInt8.toNat_inj.mp
    simp only [UInt16.toNat_toUInt8, UInt16.toNat_shiftRight, UInt16.toNat_ofNat', UInt8.toNat_ofNat', Nat.shiftRight_eq_div_pow]
    show n % 65536 / 256 % 256 = n / 256 % 256
    omega
  · congr 1
    apply UInt8.toNat_inj.mp
    simp

theorem xorIv_nil (a : Bytes) : xorIv a [] = a := by simp [xorIv]
theorem nil_xorIv (b : Bytes) : xorIv [] b = [] := by simp [xorIv]
theorem xorIv_cons (x y : UInt8) (a b : Bytes) : xorIv (x :: a) (y :: b) = (x ^^^ y) :: xorIv a b := by simp [xorIv]

theorem xorIv_length (a b : Bytes) : (xorIv a b).length = a.length := by
  simp [xorIv]; omega

theorem xorIv_xorIv (a b : Bytes) : xorIv (xorIv a b) b = a := by
  induction a generalizing b with
  | nil => simp [nil_xorIv]
  | cons x a ih =>
    cases b with
    | nil => simp [xorIv_nil]
    | cons y b => rw [xorIv_cons, xorIv_cons, ih, UInt8.xor_assoc, UInt8.xor_self, UInt8.xor_zero]

theorem xorIv_inj {a a' b : Bytes} (h : xorIv a b = xorIv a' b) : a = a' := by
  rw [← xorIv_xorIv a b, h, xorIv_xorIv]

theorem xorIv_spec (x : UInt64) (iv : Bytes) (hiv : iv.length = 12) : xorIv (List.replicate 4 0 ++ Util.u64BeArray x) iv = recordNonce iv x.toNat := by
  rw [u64Be, beBytes_pad, xorIv, recordNonce, List.drop_eq_nil_of_le (by simp [hiv]), List.append_nil]

/-- The nonce for a counter value; it determines the counter value. -/
def nonceFor (iv : Option Bytes) (k : UInt64) : Bytes :=
  match iv with
  | some iv => xorIv (List.replicate 4 0 ++ Util.u64BeArray k) iv
  | none => List.replicate 4 0 ++ Util.u64BeArray k

theorem nonceFor_length (iv : Option Bytes) (k : UInt64) : (nonceFor iv k).length = 12 := by
  cases iv <;> simp [nonceFor, xorIv_length, u64Be]

theorem nonceFor_inj {iv : Option Bytes} {j k : UInt64} (h : nonceFor iv j = nonceFor iv k) : j = k := by
  have h1 : List.replicate 4 (0 : UInt8) ++ Util.u64BeArray j = List.replicate 4 0 ++ Util.u64BeArray k := by
    cases iv with
    | none => exact h
    | some iv => exact xorIv_inj h
  have h2 := List.append_cancel_left h1
  rw [u64Be, u64Be] at h2
  have h3 := congrArg beNat h2
  rw [beNat_beBytes, beNat_beBytes] at h3
  apply UInt64.toNat_inj.mp
  have := j.toNat_lt
  have := k.toNat_lt
  rwa [Nat.mod_eq_of_lt (by simpa using j.toNat_lt), Nat.mod_eq_of_lt (by simpa using k.toNat_lt)] at h3

theorem TlsWriter.nonce_eq (s : TlsWriter) : s.nonce = nonceFor s.iv s.writeCount := by
  unfold TlsWriter.nonce nonceFor
  cases s.iv <;> rfl
theorem TlsReader.nonce_eq (s : TlsReader) : s.nonce = nonceFor s.iv s.readCount := by
  unfold TlsReader.nonce nonceFor
  cases s.iv <;> rfl

theorem TlsWriter.ad_eq (s : TlsWriter) (r : Record) :
    s.ad r = recordAad s.writeCount.toNat r.contentType.toU8 r.verMajor r.verMinor r.fragment.length := by
  unfold TlsWriter.ad recordAad
  rw [u64Be, ← be16_split]
  simp
theorem TlsReader.ad_eq (s : TlsReader) (ty : ContentType) (a b : UInt8) (n : Nat) :
    s.ad ty a b n = recordAad s.readCount.toNat ty.toU8 a b n := by
  unfold TlsReader.ad recordAad
  rw [u64Be, ← be16_split]
  simp

namespace Writer

theorem writeAll_cases (b : Bytes) (w : Writer) :
    (∃ w', (writeAll b).run w = (.ok (), w') ∧ w'.wire = w.wire ++ b ∧ (w.faults = [] → w'.faults = [])) ∨
    (∃ w' k, (writeAll b).run w = (.err .IoFailure, w') ∧ w'.wire = w.wire ++ b.take k ∧ w.faults ≠ []) := by
  unfold writeAll
  simp only
  split
  · rename_i h; exact Or.inl ⟨w, rfl, by simp [h], id⟩
  · split
    · rename_i h; exact Or.inl ⟨_, rfl, rfl, id⟩
    · rename_i h; exact Or.inl ⟨_, rfl, rfl, by simp [h]⟩
    · rename_i k fs h; exact Or.inr ⟨_, k, rfl, rfl, by simp [h]⟩

theorem transmute_be16 (n : Nat) (h : n < 2 ^ 16) : Util.transmute 2 (Util.toBe 2 (UInt16.ofNat n).toNat) = beBytes 2 n := by
  rw [Util.toBe_transmute]
  congr 1
  simp only [UInt16.toNat_ofNat']
  omega

theorem transmute_u8 (x : UInt8) : Util.transmute 1 x.toNat = [x] := by
  simp [Util.transmute, leBytes]

end Writer

namespace TlsWriter

/-- The state after the ghost log got one more entry. -/
def logged (s : TlsWriter) (record : Record) (c : Bytes) : TlsWriter :=
  match s.encryptor with
  | none => s
  | some _ => { s with calls := s.calls ++ [⟨s.nonce, record.fragment, s.ad record, c⟩] }

/-- What goes on the wire as fragment. -/
def sealed (s : TlsWriter) (record : Record) : Res Bytes :=
  match s.encryptor with
  | none => .ok record.fragment
  | some e => e.encrypt s.nonce record.fragment (s.ad record)

theorem protect_run (s : TlsWriter) (record : Record) : (protect record).run s =
    match s.sealed record with
    | .ok c => (.ok c, s.logged record c)
    | .err k => (.err k, s)
    | .panic => (.panic, s)
    | .diverge => (.diverge, s) := by
  unfold protect sealed logged
  simp only
  cases s.encryptor with
  | none => rfl
  | some e => simp only; cases e.encrypt s.nonce record.fragment (s.ad record) <;> rfl

theorem logged_same (s : TlsWriter) (record : Record) (c : Bytes) : (s.logged record c).writer = s.writer ∧ (s.logged record c).encryptor = s.encryptor ∧
    (s.logged record c).writeCount = s.writeCount ∧ (s.logged record c).iv = s.iv := by
  unfold logged
  cases h : s.encryptor <;> simp [h]

theorem io_ok {x : St Writer α} {s : TlsWriter} {a : α} {w : Writer} (h : x.run s.writer = (.ok a, w)) :
    (io x).run s = (.ok a, { s with writer := w }) := by
  simp only [io, St.zoom_run, h]

theorem io_err {x : St Writer α} {s : TlsWriter} {k} {w : Writer} (h : x.run s.writer = (.err k, w)) :
    (io x).run s = (.err k, { s with writer := w }) := by
  simp only [io, St.zoom_run, h]

/-- The five writes of a record. -/
def emit (m : Mode) (record : Record) (c : Bytes) : St TlsWriter Unit := do
  io (Writer.writeU8 record.contentType.toU8)
  io (Writer.writeU8 record.verMajor)
  io (Writer.writeU8 record.verMinor)
  io (Writer.writeBeU16 (UInt16.ofNat c.length))
  io (Writer.writeAll c)
  bump m

theorem writeRecord_run (m : Mode) (record : Record) (s : TlsWriter) : (writeRecord m record).run s =
    match s.sealed record with
    | .ok c => if c.length > ENC_RECORD_MAX_LEN then (.panic, s.logged record c) else (emit m record c).run (s.logged record c)
    | .err k => (.err k, s)
    | .panic => (.panic, s)
    | .diverge => (.diverge, s) := by
  rw [writeRecord, St.bind_run, protect_run]
  cases s.sealed record with
  | ok c =>
    simp only
    split <;> rfl
  | err k => rfl
  | panic => rfl
  | diverge => rfl

theorem bump_ok (m : Mode) (s : TlsWriter) (h : s.writeCount.toNat + 1 < 2 ^ 64) : (bump m).run s = (.ok (), { s with writeCount := s.writeCount + 1 }) := by
  have h1 : (1 : UInt64).toNat = 1 := rfl
  simp only [bump, addU64, h1, if_pos h]

theorem bump_cases (m : Mode) (s : TlsWriter) : (bump m).run s = (.ok (), { s with writeCount := s.writeCount + 1 }) ∨
    ((bump m).run s = (.panic, s) ∧ 2 ^ 64 ≤ s.writeCount.toNat + 1) := by
  have h1 : (1 : UInt64).toNat = 1 := rfl
  by_cases h : s.writeCount.toNat + 1 < 2 ^ 64
  · exact Or.inl (bump_ok m s h)
  · cases m with
    | debug => right; exact ⟨by simp only [bump, addU64, h1, if_neg h], by omega⟩
    | release => left; simp only [bump, addU64, h1, if_neg h]

/-- `p` is an initial part of `q`. -/
theorem take_append_prefix (a b : Bytes) (k : Nat) (c : Bytes) : ∃ n, a ++ b.take k = (a ++ (b ++ c)).take n := by
  by_cases h : k ≤ b.length
  · refine ⟨a.length + k, ?_⟩
    rw [List.take_length_add_append, List.take_append_of_le_length h]
  · refine ⟨a.length + b.length, ?_⟩
    rw [List.take_length_add_append, List.take_left', List.take_of_length_le (by omega)]
    rfl

theorem emit_cases (m : Mode) (record : Record) (c : Bytes) (s : TlsWriter) (hc : c.length ≤ ENC_RECORD_MAX_LEN) :
    (∃ w', (emit m record c).run s = (bump m).run { s with writer := w' } ∧
      w'.wire = s.writer.wire ++ recordBytes record.contentType.toU8 record.verMajor record.verMinor c ∧ (s.writer.faults = [] → w'.faults = [])) ∨
    (∃ w' n, (emit m record c).run s = (.err .IoFailure, { s with writer := w' }) ∧
      w'.wire = s.writer.wire ++ (recordBytes record.contentType.toU8 record.verMajor record.verMinor c).take n ∧ s.writer.faults ≠ []) := by
  have hE : ENC_RECORD_MAX_LEN = 18432 := rfl
  have hrb : recordBytes record.contentType.toU8 record.verMajor record.verMinor c =
      [record.contentType.toU8] ++ ([record.verMajor] ++ ([record.verMinor] ++ (beBytes 2 c.length ++ c))) := by simp [recordBytes]
  have step : ∀ (b : Bytes) (f : Unit → St TlsWriter Unit) (rest : Bytes) (s : TlsWriter),
      (∀ s : TlsWriter, (∃ w', (f ()).run s = (bump m).run { s with writer := w' } ∧ w'.wire = s.writer.wire ++ rest ∧ (s.writer.faults = [] → w'.faults = [])) ∨
        (∃ w' n, (f ()).run s = (.err .IoFailure, { s with writer := w' }) ∧ w'.wire = s.writer.wire ++ rest.take n ∧ s.writer.faults ≠ [])) →
      (∃ w', (io (Writer.writeAll b) >>= f).run s = (bump m).run { s with writer := w' } ∧ w'.wire = s.writer.wire ++ (b ++ rest) ∧ (s.writer.faults = [] → w'.faults = [])) ∨
        (∃ w' n, (io (Writer.writeAll b) >>= f).run s = (.err .IoFailure, { s with writer := w' }) ∧ w'.wire = s.writer.wire ++ (b ++ rest).take n ∧ s.writer.faults ≠ []) := by
    intro b f rest s hf
    rcases Writer.writeAll_cases b s.writer with ⟨w1, h1, h2, h3⟩ | ⟨w1, k, h1, h2, h3⟩
    · rw [St.bind_of_ok (io_ok h1)]
      rcases hf { s with writer := w1 } with ⟨w2, g1, g2, g3⟩ | ⟨w2, n, g1, g2, g3⟩
      · left
        refine ⟨w2, g1, ?_, fun h => g3 (h3 h)⟩
        rw [g2, h2]; simp
      · right
        refine ⟨w2, b.length + n, g1, ?_, fun h => g3 (h3 h)⟩
        rw [g2, List.take_length_add_append]
        simp only [h2, List.append_assoc]
    · right
      rw [St.bind_of_err (io_err h1)]
      obtain ⟨n, hn⟩ := take_append_prefix [] b k rest
      exact ⟨w1, n, rfl, by rw [h2]; simpa using hn, h3⟩
  have e : emit m record c = (io (Writer.writeAll [record.contentType.toU8]) >>= fun _ => io (Writer.writeAll [record.verMajor]) >>= fun _ =>
      io (Writer.writeAll [record.verMinor]) >>= fun _ => io (Writer.writeAll (beBytes 2 c.length)) >>= fun _ => io (Writer.writeAll c) >>= fun _ => bump m) := by
    rw [← Writer.transmute_u8, ← Writer.transmute_u8, ← Writer.transmute_u8, ← Writer.transmute_be16 c.length (by omega)]
    rfl
  rw [e, hrb]
  refine step _ _ _ s fun s => step _ _ _ s fun s => step _ _ _ s fun s => step _ _ _ s fun s => ?_
  have := step c (fun _ => bump m) [] s fun s => Or.inl ⟨s.writer, rfl, by simp, id⟩
  rwa [List.append_nil] at this

/-- A record written successfully. -/
structure Wrote (s : TlsWriter) (record : Record) (c : Bytes) (s' : TlsWriter) : Prop where
  seal_ok : s.sealed record = .ok c
  short : c.length ≤ ENC_RECORD_MAX_LEN
  wire : s'.writer.wire = s.writer.wire ++ recordBytes record.contentType.toU8 record.verMajor record.verMinor c
  calls : s'.calls = (s.logged record c).calls
  count : s'.writeCount = s.writeCount + 1
  encryptor : s'.encryptor = s.encryptor
  iv : s'.iv = s.iv
  faults : s.writer.faults = [] → s'.writer.faults = []

theorem writeRecord_inv {m : Mode} {record : Record} {s s' : TlsWriter} (h : (writeRecord m record).run s = (.ok (), s')) : ∃ c, Wrote s record c s' := by
  rw [writeRecord_run] at h
  cases hs : s.sealed record with
  | ok c =>
    rw [hs] at h
    simp only at h
    split at h
    · simp at h
    · rename_i hlen
      obtain ⟨l1, l2, l3, l4⟩ := logged_same s record c
      rcases emit_cases m record c (s.logged record c) (by omega) with ⟨w', g1, g2, g3⟩ | ⟨w', n, g1, g2, g3⟩
      · rw [g1] at h
        rcases bump_cases m { s.logged record c with writer := w' } with hb | ⟨hb, -⟩
        · rw [hb] at h
          simp only [Prod.mk.injEq, true_and] at h
          subst h
          exact ⟨c, hs, by omega, by rw [← l1]; exact g2, rfl, by rw [← l3], l2, l4, by rw [← l1]; exact g3⟩
        · rw [hb] at h; simp at h
      · rw [g1] at h; simp at h
  | err k => rw [hs] at h; simp at h
  | panic => rw [hs] at h; simp at h
  | diverge => rw [hs] at h; simp at h

theorem writeRecord_ok {m : Mode} {record : Record} {s : TlsWriter} {c : Bytes} (hs : s.sealed record = .ok c) (hc : c.length ≤ ENC_RECORD_MAX_LEN)
    (hf : s.writer.faults = []) (hn : s.writeCount.toNat + 1 < 2 ^ 64) : ∃ s', (writeRecord m record).run s = (.ok (), s') ∧ Wrote s record c s' := by
  obtain ⟨l1, l2, l3, l4⟩ := logged_same s record c
  have e : (writeRecord m record).run s = (emit m record c).run (s.logged record c) := by
    rw [writeRecord_run, hs]
    simp only
    rw [if_neg (by omega)]
  rcases emit_cases m record c (s.logged record c) hc with ⟨w', g1, g2, g3⟩ | ⟨w', n, g1, g2, g3⟩
  · rw [g1, bump_ok _ _ (by simpa [l3] using hn)] at e
    obtain ⟨c', hw⟩ := writeRecord_inv e
    have : c' = c := by have := hw.seal_ok; rw [hs] at this; exact (Res.ok.inj this).symm
    subst this
    exact ⟨_, e, hw⟩
  · exact absurd (by rw [l1]; exact hf) g3

/-- A record not written successfully: the counter stands still. -/
theorem writeRecord_fail {m : Mode} {record : Record} {s s' : TlsWriter} {x : Res Unit} (h : (writeRecord m record).run s = (x, s')) (hx : x ≠ .ok ()) :
    s'.writeCount = s.writeCount ∧ s'.encryptor = s.encryptor ∧ s'.iv = s.iv ∧
    (s'.calls = s.calls ∨ ∃ c, s.sealed record = .ok c ∧ s'.calls = (s.logged record c).calls) ∧
    (∃ c n, s'.writer.wire = s.writer.wire ++ (recordBytes record.contentType.toU8 record.verMajor record.verMinor c).take n) := by
  rw [writeRecord_run] at h
  have keep : ∀ r, (r, s) = (x, s') → s'.writeCount = s.writeCount ∧ s'.encryptor = s.encryptor ∧ s'.iv = s.iv ∧
    (s'.calls = s.calls ∨ ∃ c, s.sealed record = .ok c ∧ s'.calls = (s.logged record c).calls) ∧
    (∃ c n, s'.writer.wire = s.writer.wire ++ (recordBytes record.contentType.toU8 record.verMajor record.verMinor c).take n) := by
    intro r hr
    simp only [Prod.mk.injEq] at hr
    rw [← hr.2]
    exact ⟨rfl, rfl, rfl, Or.inl rfl, [], 0, by simp⟩
  cases hs : s.sealed record with
  | ok c =>
    rw [hs] at h
    simp only at h
    obtain ⟨l1, l2, l3, l4⟩ := logged_same s record c
    split at h
    · simp only [Prod.mk.injEq] at h
      rw [← h.2]
      exact ⟨l3, l2, l4, Or.inr ⟨c, rfl, rfl⟩, [], 0, by rw [l1]; simp⟩
    · rename_i hlen
      rcases emit_cases m record c (s.logged record c) (by omega) with ⟨w', g1, g2, g3⟩ | ⟨w', n, g1, g2, g3⟩
      · rw [g1] at h
        rcases bump_cases m { s.logged record c with writer := w' } with hb | ⟨hb, -⟩
        · rw [hb] at h
          simp only [Prod.mk.injEq] at h
          exact absurd h.1.symm hx
        · rw [hb] at h
          simp only [Prod.mk.injEq] at h
          rw [← h.2]
          exact ⟨l3, l2, l4, Or.inr ⟨c, rfl, rfl⟩, c, _, by simp only; rw [g2, l1, List.take_of_length_le (Nat.le_refl _)]⟩
      · rw [g1] at h
        simp only [Prod.mk.injEq] at h
        rw [← h.2]
        exact ⟨l3, l2, l4, Or.inr ⟨c, rfl, rfl⟩, c, n, by simp only; rw [g2, l1]⟩
  | err k => rw [hs] at h; exact hs ▸ keep _ h
  | panic => rw [hs] at h; exact hs ▸ keep _ h
  | diverge => rw [hs] at h; exact hs ▸ keep _ h

/-- The records were all written, one after the other, carrying the fragments `cs`. -/
inductive Sent : TlsWriter → List (Record × Bytes) → TlsWriter → Prop
  | nil {s} : Sent s [] s
  | cons {s s1 s' rec c recs} : Wrote s rec c s1 → Sent s1 recs s' → Sent s ((rec, c) :: recs) s'

theorem Sent.trans {s s1 s' r1 r2} (h1 : Sent s r1 s1) (h2 : Sent s1 r2 s') : Sent s (r1 ++ r2) s' := by
  induction h1 with
  | nil => exact h2
  | cons a _ ih => exact .cons a (ih h2)

/-- The records `write_data` makes out of the data. -/
def recordsOf (ty : ContentType) (cs : List Bytes) : List Record := cs.map fun c => ⟨ty, TLS_VERSION.1, TLS_VERSION.2, c⟩

theorem writeChunks_inv {m : Mode} {ty : ContentType} {cs : List Bytes} (hcs : ∀ c ∈ cs, c.length ≤ RECORD_MAX_LEN) {s s' : TlsWriter}
    (h : (writeChunks m ty cs).run s = (.ok (), s')) : ∃ sent, Sent s sent s' ∧ sent.map (·.1) = recordsOf ty cs := by
  induction cs generalizing s with
  | nil =>
    simp only [writeChunks, St.pure_run, Prod.mk.injEq, true_and] at h
    subst h
    exact ⟨[], .nil, rfl⟩
  | cons c cs ih =>
    have hr : Record.new ty TLS_VERSION.1 TLS_VERSION.2 c = .ok ⟨ty, TLS_VERSION.1, TLS_VERSION.2, c⟩ := by
      rw [Record.new, if_neg (by have := hcs c (by simp); omega)]
    rw [writeChunks, St.bind_of_ok (a := ⟨ty, TLS_VERSION.1, TLS_VERSION.2, c⟩) (s' := s) (by rw [hr]; rfl)] at h
    obtain ⟨_, s1, h1, h2⟩ := St.bind_eq_ok h
    obtain ⟨c', hw⟩ := writeRecord_inv h1
    obtain ⟨sent, hs, hm⟩ := ih (fun c hc => hcs c (List.mem_cons_of_mem _ hc)) h2
    exact ⟨(_, c') :: sent, .cons hw hs, by rw [List.map_cons, hm]; rfl⟩

theorem chunk_bound (data : Bytes) : ∀ c ∈ chunks RECORD_MAX_LEN data, c.length ≤ RECORD_MAX_LEN := chunks_length_le (by decide) data

theorem writeData_inv {m : Mode} {ty : ContentType} {data : Bytes} {s s' : TlsWriter} (h : (writeData m ty data).run s = (.ok (), s')) :
    ∃ sent, Sent s sent s' ∧ sent.map (·.1) = recordsOf ty (chunks RECORD_MAX_LEN data) := writeChunks_inv (chunk_bound data) h

/-- The encryptor always delivers something that fits a record. -/
def SealsShort (s : TlsWriter) : Prop :=
  ∀ e, s.encryptor = some e → ∀ n p ad, n.length = 12 → p.length ≤ RECORD_MAX_LEN → ∃ c, e.encrypt n p ad = .ok c ∧ c.length ≤ ENC_RECORD_MAX_LEN

theorem SealsShort.seal {s : TlsWriter} (h : s.SealsShort) (r : Record) (hr : r.fragment.length ≤ RECORD_MAX_LEN) :
    ∃ c, s.sealed r = .ok c ∧ c.length ≤ ENC_RECORD_MAX_LEN := by
  have hE : ENC_RECORD_MAX_LEN = 18432 := rfl
  have hR : RECORD_MAX_LEN = 16384 := rfl
  unfold sealed
  cases he : s.encryptor with
  | none => exact ⟨r.fragment, rfl, by omega⟩
  | some e => exact h e he _ _ _ (by rw [nonce_eq, nonceFor_length]) hr

theorem writeChunks_ok {m : Mode} {ty : ContentType} {cs : List Bytes} (hcs : ∀ c ∈ cs, c.length ≤ RECORD_MAX_LEN) {s : TlsWriter} (he : s.SealsShort)
    (hf : s.writer.faults = []) (hn : s.writeCount.toNat + cs.length < 2 ^ 64) : ∃ s', (writeChunks m ty cs).run s = (.ok (), s') := by
  induction cs generalizing s with
  | nil => exact ⟨s, rfl⟩
  | cons c cs ih =>
    have hr : Record.new ty TLS_VERSION.1 TLS_VERSION.2 c = .ok ⟨ty, TLS_VERSION.1, TLS_VERSION.2, c⟩ := by
      rw [Record.new, if_neg (by have := hcs c (by simp); omega)]
    rw [writeChunks, St.bind_of_ok (a := ⟨ty, TLS_VERSION.1, TLS_VERSION.2, c⟩) (s' := s) (by rw [hr]; rfl)]
    obtain ⟨c', h1, h2⟩ := he.seal ⟨ty, TLS_VERSION.1, TLS_VERSION.2, c⟩ (hcs c (by simp))
    simp only [List.length_cons] at hn
    obtain ⟨s1, h3, hw⟩ := writeRecord_ok (m := m) h1 h2 hf (by omega)
    rw [St.bind_of_ok h3]
    refine ih (fun c hc => hcs c (List.mem_cons_of_mem _ hc)) ?_ (hw.faults hf) ?_
    · intro e hee; exact he e (by rw [← hw.encryptor]; exact hee)
    · have h1 : (1 : UInt64).toNat = 1 := rfl
      rw [hw.count, UInt64.toNat_add, h1]
      omega

theorem Sent.same {s sent s'} (h : Sent s sent s') : s'.encryptor = s.encryptor ∧ s'.iv = s.iv ∧ s'.writeCount = s.writeCount + UInt64.ofNat sent.length ∧
    (s.writer.faults = [] → s'.writer.faults = []) := by
  induction h with
  | nil => exact ⟨rfl, rfl, by simp, id⟩
  | cons hw _ ih =>
    refine ⟨ih.1.trans hw.encryptor, ih.2.1.trans hw.iv, ?_, fun h => ih.2.2.2 (hw.faults h)⟩
    rw [ih.2.2.1, hw.count, List.length_cons, UInt64.ofNat_add, UInt64.add_assoc]
    congr 1
    rw [UInt64.add_comm]
    rfl

/-- The wire after the records were sent. -/
theorem Sent.wire {s sent s'} (h : Sent s sent s') : s'.writer.wire = s.writer.wire ++
    sent.flatMap (fun rc => recordBytes rc.1.contentType.toU8 rc.1.verMajor rc.1.verMinor rc.2) := by
  induction h with
  | nil => simp
  | cons hw _ ih => rw [ih, hw.wire]; simp

end TlsWriter

end Husk
