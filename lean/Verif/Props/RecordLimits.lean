import Verif.Props.Record
import Verif.Props.KeystreamReuse
/-! C120: which records `write_record` lets out, and what a `TlsReader` makes of them. -/

namespace Husk

open Item Spec TlsReader

/-! ### Specification -/

/-- A reader and a writer with the same keys, at the same record number, or both without keys. -/
inductive Matched (w : TlsWriter) (s : TlsReader) : Prop
  | clear : w.encryptor = none → s.decryptor = none → s.readCount = w.writeCount → Matched w s
  | keyed {m m' : Mode} {key : Bytes} : w.encryptor = some (.chacha m key) → s.decryptor = some (.chacha m' key) → key.length = 32 → s.iv = w.iv → s.readCount = w.writeCount → Matched w s

/-- How `write_record` and the reader that gets its bytes end. -/
inductive Passage
  /-- the reader gives the record back -/
  | arrives
  /-- the writer panics, and sends nothing -/
  | writerPanics
  /-- the writer sends the record, and the reader panics -/
  | readerPanics
  /-- the writer sends the record, and the reader refuses it with RecordOverflow -/
  | readerRefuses
  deriving DecidableEq

/-- What happens to the record `rec`, sent by `w` in the build mode `m` and read in the build mode `m'` by any matching reader, whatever follows on its transport. -/
def Passes (m m' : Mode) (w : TlsWriter) (rec : Record) : Passage → Prop
  | .writerPanics => ∃ w', (TlsWriter.writeRecord m rec).run w = (.panic, w') ∧ w'.writer = w.writer
  | .arrives => ∃ w' out, (TlsWriter.writeRecord m rec).run w = (.ok (), w') ∧ w'.writer.wire = w.writer.wire ++ out ∧ ∀ (s : TlsReader) (l : List Sym), Matched w s → s.reader.stream = ofBytes out ++ l →
      ∃ s', (readRecord m').run s = (.ok rec, s') ∧ s'.reader.stream = l ∧ Matched w' s'
  | .readerPanics => ∃ w' out, (TlsWriter.writeRecord m rec).run w = (.ok (), w') ∧ w'.writer.wire = w.writer.wire ++ out ∧ ∀ (s : TlsReader) (l : List Sym), Matched w s → s.reader.stream = ofBytes out ++ l →
      ∃ s', (readRecord m').run s = (.panic, s')
  | .readerRefuses => ∃ w' out, (TlsWriter.writeRecord m rec).run w = (.ok (), w') ∧ w'.writer.wire = w.writer.wire ++ out ∧ ∀ (s : TlsReader) (l : List Sym), Matched w s → s.reader.stream = ofBytes out ++ l →
      ∃ s', (readRecord m').run s = (.err .RecordOverflow, s')

/-- C120: whatever the fields of the record say, it arrives, or `write_record` refuses it with an error and sends nothing. -/
def AllArrive : Prop := ∀ (m m' : Mode) (w : TlsWriter) (rec : Record), (∃ s, Matched w s) → w.writer.faults = [] → w.writeCount.toNat + 1 < 2 ^ 64 → rec.fragment.length ≤ 2 ^ 38 - 144 →
  Passes m m' w rec .arrives ∨ ∃ e w', (TlsWriter.writeRecord m rec).run w = (.err e, w') ∧ w'.writer = w.writer

/-- What happens, by the length of the fragment, with and without a key. -/
def passage (keyed : Bool) (n : Nat) : Passage :=
  if n ≤ 2 ^ 14 then .arrives
  else if keyed then (if n ≤ 2 ^ 14 + 2032 then .readerPanics else .writerPanics)
  else (if n ≤ 2 ^ 14 + 2048 then .readerRefuses else .writerPanics)

/-! ### Proof -/

theorem readRecord_opened {m : Mode} {s : TlsReader} {ty : ContentType} {a b : UInt8} {f : Bytes} {l : List Sym} (hl : f.length ≤ ENC_RECORD_MAX_LEN)
    (hs : s.reader.stream = ofBytes (recordBytes ty.toU8 a b f) ++ l) {rec : Record} (hu : s.unprotect ty a b f = .ok rec) (hn : s.readCount.toNat + 1 < 2 ^ 64) :
    ∃ r', r'.stream = l ∧ (readRecord m).run s = (.ok rec, { s with reader := r', readCount := s.readCount + 1 }) := by
  obtain ⟨r', h1, h2⟩ := readRecord_front (m := m) hl hs
  refine ⟨r', h1, ?_⟩
  rw [h2, finish_run, show TlsReader.unprotect { s with reader := r' } ty a b f = s.unprotect ty a b f from rfl, hu]
  have : (bump m).run { s with reader := r' } = (.ok (), { s with reader := r', readCount := s.readCount + 1 }) := TlsReader.bump_ok _ _ hn
  simp only [this]
  rfl

/-- C120, what is the case: the length of the fragment alone, and whether there is a key, decide what becomes of the record. -/
theorem C120_passage (m m' : Mode) (w : TlsWriter) (rec : Record) (hm : ∃ s, Matched w s) (hf : w.writer.faults = []) (hn : w.writeCount.toNat + 1 < 2 ^ 64)
    (hl : rec.fragment.length ≤ 2 ^ 38 - 144) : Passes m m' w rec (passage w.encryptor.isSome rec.fragment.length) := by
  have hE : ENC_RECORD_MAX_LEN = 18432 := rfl
  have hR : RECORD_MAX_LEN = 16384 := rfl
  obtain ⟨ty, a, b, p⟩ := rec
  obtain ⟨s0, hm⟩ := hm
  cases hw : w.encryptor with
  | none =>
    have hs : w.sealed ⟨ty, a, b, p⟩ = .ok p := by simp only [TlsWriter.sealed, hw]
    have hd : ∀ s, Matched w s → s.decryptor = none ∧ s.readCount = w.writeCount := by
      intro s h
      cases h with
      | clear _ h1 h2 => exact ⟨h1, h2⟩
      | keyed h1 => rw [hw] at h1; cases h1
    have hsend : p.length ≤ 18432 → ∃ w', (TlsWriter.writeRecord m ⟨ty, a, b, p⟩).run w = (.ok (), w') ∧ TlsWriter.Wrote w ⟨ty, a, b, p⟩ p w' :=
      fun h => TlsWriter.writeRecord_ok hs (by omega) hf hn
    by_cases h1 : p.length ≤ 2 ^ 14
    · simp only [passage, if_pos h1]
      obtain ⟨w', g1, g2⟩ := hsend (by omega)
      refine ⟨w', _, g1, g2.wire, fun s l hM hst => ?_⟩
      obtain ⟨d1, d2⟩ := hd s hM
      have hu : s.unprotect ty a b p = .ok ⟨ty, a, b, p⟩ := by
        unfold TlsReader.unprotect
        simp only [d1]
        rw [if_neg (by omega), Record.new_ok _ _ _ _ (by omega)]
      obtain ⟨r', e1, e2⟩ := readRecord_opened (m := m') (by omega) hst hu (by rw [d2]; exact hn)
      exact ⟨_, e2, e1, .clear (by rw [g2.encryptor, hw]) d1 (by rw [g2.count]; show s.readCount + 1 = _; rw [d2])⟩
    · simp only [passage, if_neg h1, Option.isSome_none, Bool.false_eq_true, if_false]
      by_cases h2 : p.length ≤ 2 ^ 14 + 2048
      · rw [if_pos h2]
        obtain ⟨w', g1, g2⟩ := hsend (by omega)
        refine ⟨w', _, g1, g2.wire, fun s l hM hst => ?_⟩
        exact ⟨_, Prod.ext (C18_plain_too_long m' s ty a b p l (hd s hM).1 (by omega) (by omega) hst) rfl⟩
      · rw [if_neg h2]
        refine ⟨_, by rw [TlsWriter.writeRecord_run, hs]; simp only; rw [if_pos (by omega)], (TlsWriter.logged_same _ _ _).1⟩
  | some e =>
    obtain ⟨mw, key, hw', hk⟩ : ∃ mw key, w.encryptor = some (.chacha mw key) ∧ key.length = 32 := by
      cases hm with
      | clear h => rw [hw] at h; cases h
      | keyed h1 _ h2 => exact ⟨_, _, h1, h2⟩
    obtain ⟨c, e1, e2, -⟩ := C37_roundtrip mw m' key w.nonce p (w.ad ⟨ty, a, b, p⟩) hk (by rw [TlsWriter.nonce_eq, nonceFor_length]) hl
    have hs : w.sealed ⟨ty, a, b, p⟩ = .ok c := by simp only [TlsWriter.sealed, hw']; exact e1
    have hopen : ∀ s, Matched w s → c.length ≤ 18432 → s.readCount = w.writeCount ∧ s.unprotect ty a b c = (if p.length > RECORD_MAX_LEN then .panic else .ok ⟨ty, a, b, p⟩) ∧
        ∀ s' w', w'.encryptor = w.encryptor → w'.iv = w.iv → w'.writeCount = w.writeCount + 1 → s'.decryptor = s.decryptor → s'.iv = s.iv → s'.readCount = s.readCount + 1 → Matched w' s' := by
      intro s hM hc
      cases hM with
      | clear h => rw [hw] at h; cases h
      | @keyed ma mb key' h1 h2 h3 h4 h5 =>
        rw [hw', Option.some.injEq] at h1
        refine ⟨h5, ?_, fun s' w' g1 g2 g3 g4 g5 g6 => .keyed (m := ma) (m' := mb) (key := key') (by rw [g1, hw', h1]) (by rw [g4, h2]) h3 (by rw [g5, h4, g2]) (by rw [g6, h5, g3])⟩
        obtain ⟨c', e1', -, e3⟩ := C37_roundtrip ma mb key' w.nonce p (w.ad ⟨ty, a, b, p⟩) h3 (by rw [TlsWriter.nonce_eq, nonceFor_length]) hl
        have hcc : c' = c := by
          have : (Encryptor.chacha ma key').encrypt w.nonce p (w.ad ⟨ty, a, b, p⟩) = .ok c := by rw [← h1]; exact e1
          exact Res.ok.inj ((show _ = _ from e1').symm.trans this)
        rw [hcc, TlsWriter.nonce_eq, TlsWriter.ad_eq] at e3
        have hmac : (Decryptor.chacha mb key').macLen = 16 := rfl
        unfold TlsReader.unprotect
        simp only [h2, TlsReader.nonce_eq, TlsReader.ad_eq, h4, h5]
        rw [hmac, if_neg (by omega), e2, Nat.add_sub_cancel, show (Decryptor.chacha mb key').decrypt (nonceFor w.iv w.writeCount) c _ = .ok p from e3, Res.bind_ok]
        split
        · rfl
        · exact Record.new_ok _ _ _ _ (by omega)
    have hsend : p.length ≤ 18416 → ∃ w', (TlsWriter.writeRecord m ⟨ty, a, b, p⟩).run w = (.ok (), w') ∧ TlsWriter.Wrote w ⟨ty, a, b, p⟩ c w' :=
      fun h => TlsWriter.writeRecord_ok hs (by omega) hf hn
    by_cases h1 : p.length ≤ 2 ^ 14
    · simp only [passage, if_pos h1]
      obtain ⟨w', g1, g2⟩ := hsend (by omega)
      refine ⟨w', _, g1, g2.wire, fun s l hM hst => ?_⟩
      obtain ⟨d1, d2, d3⟩ := hopen s hM (by omega)
      rw [if_neg (by omega)] at d2
      obtain ⟨r', k1, k2⟩ := readRecord_opened (m := m') (by omega) hst d2 (by rw [d1]; exact hn)
      exact ⟨_, k2, k1, d3 _ _ g2.encryptor g2.iv g2.count rfl rfl rfl⟩
    · simp only [passage, if_neg h1, Option.isSome_some, if_true]
      by_cases h2 : p.length ≤ 2 ^ 14 + 2032
      · rw [if_pos h2]
        obtain ⟨w', g1, g2⟩ := hsend (by omega)
        refine ⟨w', _, g1, g2.wire, fun s l hM hst => ?_⟩
        obtain ⟨d1, d2, -⟩ := hopen s hM (by omega)
        rw [if_pos (by omega)] at d2
        obtain ⟨r', -, k2⟩ := readRecord_front (m := m') (by omega) hst
        rw [finish_run, show TlsReader.unprotect { s with reader := r' } ty a b c = s.unprotect ty a b c from rfl, d2] at k2
        exact ⟨_, k2⟩
      · rw [if_neg h2]
        refine ⟨_, by rw [TlsWriter.writeRecord_run, hs]; simp only; rw [if_pos (by omega)], (TlsWriter.logged_same _ _ _).1⟩

/-- Partial C120 (missing: that longer records are refused with an error): a record of at most 2^14 bytes arrives, with its type and version. -/
theorem C120_fits_partial (m m' : Mode) (w : TlsWriter) (rec : Record) (hm : ∃ s, Matched w s) (hf : w.writer.faults = []) (hn : w.writeCount.toNat + 1 < 2 ^ 64)
    (hl : rec.fragment.length ≤ 2 ^ 14) : Passes m m' w rec .arrives := by
  have h := C120_passage m m' w rec hm hf hn (by omega)
  rwa [passage, if_pos hl] at h

/-- No longer record arrives, and none is refused with an error by `write_record`. -/
theorem C120_too_long (m m' : Mode) (w : TlsWriter) (rec : Record) (hm : ∃ s, Matched w s) (hf : w.writer.faults = []) (hn : w.writeCount.toNat + 1 < 2 ^ 64)
    (hl : rec.fragment.length ≤ 2 ^ 38 - 144) (hlong : 2 ^ 14 < rec.fragment.length) : ¬ Passes m m' w rec .arrives ∧ ∀ e w', (TlsWriter.writeRecord m rec).run w ≠ (.err e, w') := by
  have h := C120_passage m m' w rec hm hf hn hl
  obtain ⟨s0, hm⟩ := hm
  have hM : ∀ st, Matched w { s0 with reader := st } := by
    intro st
    cases hm with
    | clear h1 h2 h3 => exact .clear h1 h2 h3
    | keyed h1 h2 h3 h4 h5 => exact .keyed h1 h2 h3 h4 h5
  rw [passage, if_neg (by omega)] at h
  have key : ∀ (x : Passage), Passes m m' w rec x → x ≠ .arrives → ¬ Passes m m' w rec .arrives ∧ ∀ e w', (TlsWriter.writeRecord m rec).run w ≠ (.err e, w') := by
    intro x hx hne
    cases x with
    | arrives => exact absurd rfl hne
    | writerPanics =>
      obtain ⟨w', g, -⟩ := hx
      exact ⟨fun ⟨_, _, h, _⟩ => (by rw [g] at h; cases h), fun e w'' h => (by rw [g] at h; cases h)⟩
    | readerPanics =>
      obtain ⟨w', out, g, g1, g2⟩ := hx
      refine ⟨fun ⟨w'', out', h, h1, h2⟩ => ?_, fun e w'' h => (by rw [g] at h; cases h)⟩
      rw [g] at h
      cases h
      cases List.append_cancel_left (g1.symm.trans h1)
      obtain ⟨_, k1⟩ := g2 _ [] (hM (byteByByte out)) (by rw [List.append_nil]; exact stream_byteByByte _)
      obtain ⟨_, k2, -⟩ := h2 _ [] (hM (byteByByte out)) (by rw [List.append_nil]; exact stream_byteByByte _)
      rw [k1] at k2
      cases k2
    | readerRefuses =>
      obtain ⟨w', out, g, g1, g2⟩ := hx
      refine ⟨fun ⟨w'', out', h, h1, h2⟩ => ?_, fun e w'' h => (by rw [g] at h; cases h)⟩
      rw [g] at h
      cases h
      cases List.append_cancel_left (g1.symm.trans h1)
      obtain ⟨_, k1⟩ := g2 _ [] (hM (byteByByte out)) (by rw [List.append_nil]; exact stream_byteByByte _)
      obtain ⟨_, k2, -⟩ := h2 _ [] (hM (byteByByte out)) (by rw [List.append_nil]; exact stream_byteByByte _)
      rw [k1] at k2
      cases k2
  exact key _ h (by split <;> split <;> simp)

/-- A writer and a reader with keys. -/
theorem matched_exists (m m' : Mode) (key iv : Bytes) (hk : key.length = 32) :
    ∃ s, Matched { writer := {}, encryptor := some (.chacha m key), iv := some iv, writeCount := 7 } s :=
  ⟨{ TlsReader.new ⟨[]⟩ with decryptor := some (.chacha m' key), iv := some iv, readCount := 7 }, .keyed rfl rfl hk rfl rfl⟩

theorem C120_false : ¬ AllArrive := by
  intro h
  obtain ⟨p, hp⟩ : ∃ p : Bytes, p.length = 16385 := ⟨List.replicate 16385 1, List.length_replicate⟩
  have hm := matched_exists .release .release (List.replicate 32 0) [] List.length_replicate
  obtain ⟨h1, h2⟩ := C120_too_long .release .release _ ⟨.ApplicationDataTy, 3, 3, p⟩ hm rfl (by decide) (by show p.length ≤ _; omega) (by show _ < p.length; omega)
  rcases h .release .release _ ⟨.ApplicationDataTy, 3, 3, p⟩ hm rfl (by decide) (by show p.length ≤ _; omega) with h | ⟨e, w', h, -⟩
  · exact h1 h
  · exact h2 e w' h

/-- All four ends occur. -/
example : passage true 16384 = .arrives ∧ passage true 16385 = .readerPanics ∧ passage false 16385 = .readerRefuses ∧ passage true 18417 = .writerPanics ∧ passage false 18417 = .readerRefuses ∧
    passage false 18433 = .writerPanics := by decide

end Husk
