import Verif.Proofs.TlsMessages
import Verif.Proofs.TlsWriter
import Verif.Props.Aead
/-! C11-C14, C16, C18-C20: the record layer. -/

namespace Husk

open Spec TlsReader

/-! ### C11: chunking of the transport -/

/-- What a user of `TlsReader` can call. -/
inductive ReadOp
  | message | applicationData | handshake | changeCipherSpec

/-- Forgets the payload type so that results of different calls fit in one list. -/
inductive ReadResult
  | message (r : Res Message) | applicationData (r : Res Bytes) | handshake (r : Res Handshake) | changeCipherSpec (r : Res Unit)
  deriving DecidableEq

def ReadOp.run (m : Mode) (s : TlsReader) : ReadOp → ReadResult × TlsReader
  | .message => let (r, s) := (readMessage m).run s; (.message r, s)
  | .applicationData => let (r, s) := (readApplicationData m).run s; (.applicationData r, s)
  | .handshake => let (r, s) := (readHandshake m).run s; (.handshake r, s)
  | .changeCipherSpec => let (r, s) := (readChangeCipherSpec m).run s; (.changeCipherSpec r, s)

/-- Any history of calls; errors do not end it. -/
def runReads (m : Mode) : List ReadOp → TlsReader → List ReadResult × TlsReader
  | [], s => ([], s)
  | op :: ops, s =>
    let (r, s) := op.run m s
    let (rs, s) := runReads m ops s
    (r :: rs, s)

theorem readOp_same (m : Mode) (op : ReadOp) {s t : TlsReader} (h : Same s t) : (op.run m s).1 = (op.run m t).1 ∧ Same (op.run m s).2 (op.run m t).2 := by
  cases op with
  | message => obtain ⟨h1, h2⟩ := readMessage_respects m s t h; exact ⟨congrArg ReadResult.message h1, h2⟩
  | applicationData => obtain ⟨h1, h2⟩ := readApplicationData_respects m s t h; exact ⟨congrArg ReadResult.applicationData h1, h2⟩
  | handshake => obtain ⟨h1, h2⟩ := readHandshake_respects m s t h; exact ⟨congrArg ReadResult.handshake h1, h2⟩
  | changeCipherSpec => obtain ⟨h1, h2⟩ := readChangeCipherSpec_respects m s t h; exact ⟨congrArg ReadResult.changeCipherSpec h1, h2⟩

theorem runReads_same (m : Mode) (ops : List ReadOp) {s t : TlsReader} (h : Same s t) :
    (runReads m ops s).1 = (runReads m ops t).1 ∧ Same (runReads m ops s).2 (runReads m ops t).2 := by
  induction ops generalizing s t with
  | nil => exact ⟨rfl, h⟩
  | cons op ops ih =>
    obtain ⟨h1, h2⟩ := readOp_same m op h
    obtain ⟨h3, h4⟩ := ih h2
    exact ⟨by simp only [runReads]; rw [h1, h3], h4⟩

/-- A transport that delivers the given non-empty pieces one by one and then ends. -/
def pieces (bs : List Bytes) : Reader := ⟨bs.map Ev.data⟩

theorem pieces_stream (bs : List Bytes) (h : ∀ b ∈ bs, b ≠ []) : (pieces bs).stream = ofBytes bs.flatten := by
  induction bs with
  | nil => rfl
  | cons b bs ih =>
    have := Reader.stream_data b (h b (by simp)) (bs.map Ev.data)
    rw [pieces, List.map_cons, this]
    have ih := ih fun c hc => h c (List.mem_cons_of_mem _ hc)
    rw [pieces] at ih
    rw [ih, List.flatten_cons, ofBytes_append]

/-- C11: every history of `TlsReader` calls returns the same results however the transport cuts the same bytes into non-empty pieces. -/
theorem C11_history (m : Mode) (ops : List ReadOp) (s : TlsReader) (bs cs : List Bytes) (hb : ∀ b ∈ bs, b ≠ []) (hc : ∀ c ∈ cs, c ≠ [])
    (he : bs.flatten = cs.flatten) :
    (runReads m ops { s with reader := pieces bs }).1 = (runReads m ops { s with reader := pieces cs }).1 ∧
    (runReads m ops { s with reader := pieces bs }).2.reader.stream = (runReads m ops { s with reader := pieces cs }).2.reader.stream := by
  obtain ⟨h1, h2⟩ := runReads_same m ops (s := { s with reader := pieces bs }) (t := { s with reader := pieces cs })
    ⟨by simp only; rw [pieces_stream bs hb, pieces_stream cs hc, he], rfl, rfl, rfl, rfl⟩
  exact ⟨h1, h2.1⟩

/-- C11: a single record, likewise (also after interruptions and empty reads: only the flat streams have to agree). -/
theorem C11_record (m : Mode) (s t : TlsReader) (h : Same s t) :
    ((readRecord m).run s).1 = ((readRecord m).run t).1 ∧ Same ((readRecord m).run s).2 ((readRecord m).run t).2 := readRecord_respects m s t h

/-- C11: `read_exact` returns the next `n` bytes for every cutting, and leaves the rest unread. -/
theorem C11_read_exact (n : Nat) (bs : List Bytes) (hb : ∀ b ∈ bs, b ≠ []) (hn : n ≤ bs.flatten.length) :
    ∃ r', (Reader.readExact n).run (pieces bs) = (.ok (bs.flatten.take n), r') ∧ r'.stream = ofBytes (bs.flatten.drop n) := by
  refine Reader.readExact_ok (by rw [List.length_take]; omega) ?_
  rw [pieces_stream bs hb, ← ofBytes_append, List.take_append_drop]

/-- C11: if the stream ends too early, the result is an I/O failure. -/
theorem C11_too_short (n : Nat) (bs : List Bytes) (hb : ∀ b ∈ bs, b ≠ []) (hn : bs.flatten.length < n) :
    ∃ r', (Reader.readExact n).run (pieces bs) = (.err .IoFailure, r') := by
  rcases Reader.readExact_total n (pieces bs) with ⟨b, r', h⟩ | h
  · obtain ⟨h1, h2⟩ := Reader.readExact_inv h
    have := congrArg List.length h2
    rw [pieces_stream bs hb] at this
    rw [List.length_append, ofBytes, ofBytes, List.length_map, List.length_map] at this
    omega
  · exact h

example : (runReads .debug [.changeCipherSpec, .message] (TlsReader.new (pieces [[0x14, 3], [3, 0], [1, 1]]))).1 =
    [.changeCipherSpec (.ok ()), .message (.err .IoFailure)] := by decide +kernel

/-! ### C12: interruptions -/

theorem readExact_cut {n : Nat} {p : Bytes} {r : Reader} {l : List Sym} (h : r.stream = ofBytes p ++ .stop :: l) (hp : p.length < n) :
    ∃ r', (Reader.readExact n).run r = (.err .IoFailure, r') ∧ r'.stream = l := by
  obtain ⟨r', h1, h2⟩ := Reader.readExact_spec n r
  have ht : takeBytes n (ofBytes p ++ .stop :: l) = (none, l) := by
    have := takeBytes_append p (n - p.length) (.stop :: l)
    rw [show p.length + (n - p.length) = n by omega] at this
    rw [this]
    obtain ⟨k, hk⟩ : ∃ k, n - p.length = k + 1 := ⟨n - p.length - 1, by omega⟩
    rw [hk]
    rfl
  rw [h, ht] at h1 h2
  exact ⟨r', h1, h2⟩

/-- C12 is false: wherever inside a record the transport reports an interruption, the bytes of the record received before it are
dropped; the next call starts reading in the middle of the record. (`p` are the bytes before, `q` the bytes after the interruption.) -/
theorem C12_loses_bytes (m : Mode) (s : TlsReader) (ty : ContentType) (a b : UInt8) (f p q : Bytes) (l : List Sym)
    (hf : f.length ≤ ENC_RECORD_MAX_LEN) (hpq : p ++ q = recordBytes ty.toU8 a b f) (hq : q ≠ [])
    (hs : s.reader.stream = ofBytes p ++ .stop :: (ofBytes q ++ l)) :
    ∃ r', (readRecord m).run s = (.err .IoFailure, { s with reader := r' }) ∧ r'.stream = ofBytes q ++ l := by
  have hE : ENC_RECORD_MAX_LEN = 18432 := rfl
  have hql : 0 < q.length := List.length_pos_iff.mpr hq
  have hrb : recordBytes ty.toU8 a b f = ty.toU8 :: a :: b :: (beBytes 2 f.length ++ f) := by simp [recordBytes]
  rw [hrb] at hpq
  have cut8 : ∀ {r : Reader} {l}, r.stream = ofBytes [] ++ .stop :: l → ∃ r', Reader.readU8.run r = (.err .IoFailure, r') ∧ r'.stream = l := by
    intro r l h
    obtain ⟨r', h1, h2⟩ := readExact_cut (n := 1) h (by simp)
    exact ⟨r', by rw [Reader.readU8, St.bind_of_err h1], h2⟩
  match p, hpq with
  | [], _ =>
    obtain ⟨r1, h1, e1⟩ := cut8 hs
    exact ⟨r1, by rw [readRecord, St.bind_of_err (io_err h1)], e1⟩
  | x1 :: p1, hpq1 =>
    obtain ⟨rfl, hpq1'⟩ := List.cons.inj hpq1
    clear hpq1
    obtain ⟨r1, h1, e1⟩ := Reader.readU8_ok (b := ty.toU8) (l := ofBytes p1 ++ .stop :: (ofBytes q ++ l)) (by rw [hs]; rfl)
    rw [readRecord, St.bind_of_ok (io_ok h1), ContentType.ofU8_toU8]
    simp only
    match p1, hpq1' with
    | [], _ =>
      obtain ⟨r2, h2, e2⟩ := cut8 e1
      exact ⟨r2, by rw [St.bind_of_err (io_err (s := { s with reader := r1 }) h2)], e2⟩
    | x2 :: p2, hpq2 =>
      obtain ⟨rfl, hpq2'⟩ := List.cons.inj hpq2
      clear hpq2
      obtain ⟨r2, h2, e2⟩ := Reader.readU8_ok (b := x2) (l := ofBytes p2 ++ .stop :: (ofBytes q ++ l)) (by rw [e1]; rfl)
      rw [St.bind_of_ok (io_ok (s := { s with reader := r1 }) h2)]
      match p2, hpq2' with
      | [], _ =>
        obtain ⟨r3, h3, e3⟩ := cut8 e2
        exact ⟨r3, by rw [St.bind_of_err (io_err (s := { s with reader := r2 }) h3)], e3⟩
      | x3 :: p, hpq3 =>
        obtain ⟨rfl, hpq4⟩ := List.cons.inj hpq3
        obtain ⟨r3, h3, e3⟩ := Reader.readU8_ok (b := x3) (l := ofBytes p ++ .stop :: (ofBytes q ++ l)) (by rw [e2]; rfl)
        rw [St.bind_of_ok (io_ok (s := { s with reader := r2 }) h3)]
        by_cases h2 : p.length < 2
        · obtain ⟨r4, h4, e4⟩ := readExact_cut (n := 2) e3 h2
          exact ⟨r4, by rw [St.bind_of_err (io_err (s := { s with reader := r3 }) (by rw [Reader.readBeU16, St.bind_of_err h4]))], e4⟩
        · obtain ⟨p', rfl, hpq'⟩ : ∃ p', p = beBytes 2 f.length ++ p' ∧ p' ++ q = f := by
            rcases List.append_eq_append_iff.mp hpq4 with ⟨x, h1, h2⟩ | ⟨c, h1, h2⟩
            · have := congrArg List.length h1
              simp at this
              have hx : x = [] := List.length_eq_zero_iff.mp (by omega)
              subst hx
              exact ⟨[], by simpa using h1.symm, by simpa using h2⟩
            · exact ⟨c, h1, h2.symm⟩
          obtain ⟨r4, h4, e4⟩ := Reader.readBeU16_ok (n := f.length) (l := ofBytes p' ++ .stop :: (ofBytes q ++ l)) (by omega)
            (by rw [e3, ofBytes_append, List.append_assoc])
          have hlen : (UInt16.ofNat f.length).toNat = f.length := by simp only [UInt16.toNat_ofNat']; omega
          have hl := congrArg List.length hpq'
          rw [List.length_append] at hl
          obtain ⟨r5, h5, e5⟩ := readExact_cut (n := (UInt16.ofNat f.length).toNat) e4 (by omega)
          refine ⟨r5, ?_, e5⟩
          rw [St.bind_of_ok (io_ok (s := { s with reader := r3 }) h4), if_neg (by rw [hlen]; omega),
            St.bind_of_err (io_err (s := { s with reader := r4 }) h5)]

/-- C12, the part that holds: an interruption between two records is harmless, the next call returns what it would have returned. Missing:
an interruption inside a record (see `C12_loses_bytes`). -/
theorem C12_between_records_partial (m : Mode) (s : TlsReader) (l : List Sym) (hs : s.reader.stream = .stop :: l) :
    ∃ r', (readRecord m).run s = (.err .IoFailure, { s with reader := r' }) ∧ r'.stream = l := by
  obtain ⟨r1, h1, e1⟩ := readExact_cut (n := 1) (p := []) (r := s.reader) (l := l) (by rw [hs]; rfl) (by simp)
  refine ⟨r1, ?_, e1⟩
  have : Reader.readU8.run s.reader = (.err .IoFailure, r1) := by rw [Reader.readU8, St.bind_of_err h1]
  rw [readRecord, St.bind_of_err (io_err this)]

/-- C12 is false, a concrete run: a ChangeCipherSpec record interrupted after its header is never delivered, however often the caller
tries again; without the interruption it is. -/
theorem C12_interrupted_record_lost (n : Nat) :
    (runReads .debug [.message] (TlsReader.new ⟨[.data [0x14, 3, 3, 0, 1], .data [1]]⟩)).1 = [.message (.ok .ChangeCipherSpecMessage)] ∧
    ∀ r ∈ (runReads .debug (List.replicate n .message) (TlsReader.new ⟨[.data [0x14, 3, 3, 0, 1], .fail true, .data [1]]⟩)).1,
      r = .message (.err .IoFailure) ∨ r = .message (.err .UnexpectedMessage) := by
  refine ⟨by decide +kernel, ?_⟩
  have h0 : ∀ n, ∀ r ∈ (runReads .debug (List.replicate n .message) (TlsReader.new ⟨[]⟩)).1, r = .message (.err .IoFailure) ∨ r = .message (.err .UnexpectedMessage) := by
    intro n
    induction n with
    | zero => simp [runReads]
    | succ n ih =>
      intro r hr
      rcases List.mem_cons.mp hr with rfl | hr
      · left; rfl
      · exact ih r hr
  have h1 : ∀ n, ∀ r ∈ (runReads .debug (List.replicate n .message) (TlsReader.new ⟨[.data [1]]⟩)).1,
      r = .message (.err .IoFailure) ∨ r = .message (.err .UnexpectedMessage) := by
    intro n
    cases n with
    | zero => simp [runReads]
    | succ n =>
      intro r hr
      rcases List.mem_cons.mp hr with rfl | hr
      · right; rfl
      · exact h0 n r hr
  cases n with
  | zero => simp [runReads]
  | succ n =>
    intro r hr
    rcases List.mem_cons.mp hr with rfl | hr
    · left; rfl
    · exact h1 n r hr

/-! ### C13, C14: round-trip and fragmentation -/

/-- The decryptor undoes the encryptor on everything that fits a record. -/
def Matching (e : Encryptor) (d : Decryptor) : Prop :=
  d.macLen ≤ 2048 ∧ ∀ n p ad, n.length = 12 → p.length ≤ 2 ^ 14 → ∃ c, e.encrypt n p ad = .ok c ∧ c.length = p.length + d.macLen ∧ d.decrypt n c ad = .ok p

theorem matching_chacha (m m' : Mode) (key : Bytes) (hk : key.length = 32) : Matching (Encryptor.chacha m key) (Decryptor.chacha m' key) :=
  ⟨by show (16 : Nat) ≤ 2048; decide, fun n p ad hn hp => C37_roundtrip m m' key n p ad hk hn (by omega)⟩

/-- The two ends agree: no encryption on either side, or matching encryption, with the same IV and sequence number. -/
def Synced (w : TlsWriter) (r : TlsReader) : Prop :=
  r.readCount = w.writeCount ∧ r.iv = w.iv ∧
  ((w.encryptor = none ∧ r.decryptor = none) ∨ ∃ e d, w.encryptor = some e ∧ r.decryptor = some d ∧ Matching e d)

theorem Synced.sealsShort {w : TlsWriter} {r : TlsReader} (h : Synced w r) : w.SealsShort := by
  intro e he n p ad hn hp
  obtain ⟨_, _, ⟨h1, _⟩ | ⟨e', d, h1, _, hm, h2⟩⟩ := h
  · rw [he] at h1; cases h1
  · rw [he] at h1
    cases h1
    obtain ⟨c, h3, h4, _⟩ := h2 n p ad hn hp
    have hE : ENC_RECORD_MAX_LEN = 18432 := rfl
    have hR : RECORD_MAX_LEN = 16384 := rfl
    exact ⟨c, h3, by omega⟩

theorem Record.new_ok (ty : ContentType) (a b : UInt8) (f : Bytes) (h : f.length ≤ RECORD_MAX_LEN) : Record.new ty a b f = .ok ⟨ty, a, b, f⟩ := by
  rw [Record.new, if_neg (by omega)]

/-- What one end sealed the other end opens. -/
theorem Synced.unprotect {w w' : TlsWriter} {r : TlsReader} {rec : Record} {c : Bytes} (h : Synced w r) (hw : w.Wrote rec c w')
    (hf : rec.fragment.length ≤ RECORD_MAX_LEN) : r.unprotect rec.contentType rec.verMajor rec.verMinor c = .ok rec := by
  obtain ⟨hc, hiv, hed⟩ := h
  have hs := hw.seal_ok
  unfold TlsWriter.sealed at hs
  unfold TlsReader.unprotect
  rcases hed with ⟨he, hd⟩ | ⟨e, d, he, hd, hmac, hm⟩
  · rw [he] at hs
    simp only [Res.ok.injEq] at hs
    subst hs
    rw [hd]
    simp only
    rw [if_neg (by omega), Record.new_ok _ _ _ _ hf]
  · rw [he] at hs
    simp only at hs
    obtain ⟨c', h1, h2, h3⟩ := hm w.nonce rec.fragment (w.ad rec) (by rw [TlsWriter.nonce_eq, nonceFor_length]) (by simpa [RECORD_MAX_LEN] using hf)
    rw [h1] at hs
    cases hs
    rw [hd]
    simp only
    rw [if_neg (by omega), h2, Nat.add_sub_cancel]
    have hn : r.nonce = w.nonce := by rw [TlsWriter.nonce_eq, TlsReader.nonce_eq, hc, hiv]
    have ha : r.ad rec.contentType rec.verMajor rec.verMinor rec.fragment.length = w.ad rec := by
      rw [TlsWriter.ad_eq, TlsReader.ad_eq, hc]
    rw [hn, ha, h3]
    simp only [Res.bind_ok]
    rw [if_neg (by omega), Record.new_ok _ _ _ _ hf]

theorem Synced.step {w w' : TlsWriter} {r r' : TlsReader} {rec : Record} {c : Bytes} (h : Synced w r) (hw : w.Wrote rec c w')
    (h1 : r'.readCount = r.readCount + 1) (h2 : r'.iv = r.iv) (h3 : r'.decryptor = r.decryptor) : Synced w' r' := by
  obtain ⟨hc, hiv, hed⟩ := h
  exact ⟨by rw [h1, hw.count, hc], by rw [h2, hw.iv, hiv], by rw [hw.encryptor, h3]; exact hed⟩

/-- Reads the given number of records. -/
def readRecords (m : Mode) : Nat → St TlsReader (List Record)
  | 0 => pure []
  | n + 1 => do
    let r ← readRecord m
    let rs ← readRecords m n
    return r :: rs

theorem readRecords_sent (m : Mode) {w w' : TlsWriter} {sent : List (Record × Bytes)} (hsent : w.Sent sent w') :
    ∀ (r : TlsReader) (l : List Sym), Synced w r → (∀ rc ∈ sent, rc.1.fragment.length ≤ RECORD_MAX_LEN) → w.writeCount.toNat + sent.length < 2 ^ 64 →
    r.reader.stream = ofBytes (sent.flatMap (fun rc => recordBytes rc.1.contentType.toU8 rc.1.verMajor rc.1.verMinor rc.2)) ++ l →
    ∃ r', (readRecords m sent.length).run r = (.ok (sent.map (·.1)), r') ∧ r'.reader.stream = l ∧ Synced w' r' ∧ r'.handshakeBuffer = r.handshakeBuffer := by
  induction hsent with
  | nil =>
    intro r l hsy _ _ hs
    exact ⟨r, rfl, by simpa [ofBytes] using hs, hsy, rfl⟩
  | @cons s s1 s' rec c recs hw hrest ih =>
    intro r l hsy hb hn hs
    rw [List.flatMap_cons, ofBytes_append, List.append_assoc] at hs
    obtain ⟨r1, e1, h1⟩ := readRecord_front (m := m) hw.short hs
    have hu := hsy.unprotect hw (hb (rec, c) (by simp))
    have hrc : r.readCount.toNat + 1 < 2 ^ 64 := by
      rw [hsy.1]; simp only [List.length_cons] at hn; omega
    have h2 : (readRecord m).run r = (.ok rec, { r with reader := r1, readCount := r.readCount + 1 }) := by
      rw [h1, finish_run]
      have : TlsReader.unprotect { r with reader := r1 } rec.contentType rec.verMajor rec.verMinor c = .ok rec := hu
      rw [this]
      simp only
      rw [TlsReader.bump_ok m { r with reader := r1 } hrc]
      rfl
    obtain ⟨r', h3, h4, h5, h6⟩ := ih { r with reader := r1, readCount := r.readCount + 1 } l (hsy.step hw rfl rfl rfl)
      (fun rc hrc => hb rc (List.mem_cons_of_mem _ hrc)) (by
        have h1 : (1 : UInt64).toNat = 1 := rfl
        rw [hw.count, UInt64.toNat_add, h1]
        simp only [List.length_cons] at hn
        omega) (by simpa using e1)
    refine ⟨r', ?_, h4, h5, h6⟩
    rw [List.length_cons, readRecords, St.bind_of_ok h2, St.bind_of_ok h3]
    rfl

/-- C13: what `write_data` emits is read back, record by record, as the data; both sequence numbers advance together. -/
theorem C13_roundtrip (m m' : Mode) (ty : ContentType) (data : Bytes) (w : TlsWriter) (r : TlsReader) (hsy : Synced w r) (hf : w.writer.faults = [])
    (hn : w.writeCount.toNat + (data.length + 16383) / 16384 < 2 ^ 64) :
    ∃ w' emitted, (TlsWriter.writeData m ty data).run w = (.ok (), w') ∧ w'.writer.wire = w.writer.wire ++ emitted ∧
      ∀ (rd : Reader) (l : List Sym), rd.stream = ofBytes emitted ++ l →
        ∃ recs r', (readRecords m' ((data.length + 16383) / 16384)).run { r with reader := rd } = (.ok recs, r') ∧
          (∀ rec ∈ recs, rec.contentType = ty ∧ rec.verMajor = 3 ∧ rec.verMinor = 3) ∧ recs.flatMap (·.fragment) = data ∧
          r'.reader.stream = l ∧ r'.readCount = w'.writeCount ∧ Synced w' r' := by
  have hcount : (chunks RECORD_MAX_LEN data).length = (data.length + 16383) / 16384 := chunks_count (by decide) data
  obtain ⟨w', hw⟩ := TlsWriter.writeChunks_ok (m := m) (ty := ty) (TlsWriter.chunk_bound data) hsy.sealsShort hf (by rw [hcount]; exact hn)
  obtain ⟨sent, hsent, hmap⟩ := TlsWriter.writeData_inv hw
  have hlen : sent.length = (data.length + 16383) / 16384 := by
    rw [← hcount, ← List.length_map (f := Prod.fst), hmap]; simp [TlsWriter.recordsOf]
  refine ⟨w', _, hw, hsent.wire, fun rd l hrd => ?_⟩
  have hmem : ∀ rc ∈ sent, rc.1 ∈ TlsWriter.recordsOf ty (chunks RECORD_MAX_LEN data) := by
    intro rc hrc
    rw [← hmap]
    exact List.mem_map.mpr ⟨rc, hrc, rfl⟩
  obtain ⟨r', h1, h2, h3, _⟩ := readRecords_sent m' hsent { r with reader := rd } l hsy (by
      intro rc hrc
      obtain ⟨c, hc, he⟩ := List.mem_map.mp (hmem rc hrc)
      rw [← he]
      exact TlsWriter.chunk_bound data c hc) (by rw [hlen]; exact hn) hrd
  rw [hlen] at h1
  refine ⟨_, r', h1, ?_, ?_, h2, h3.1, h3⟩
  · intro rec hrec
    rw [hmap] at hrec
    obtain ⟨c, _, rfl⟩ := List.mem_map.mp hrec
    exact ⟨rfl, rfl, rfl⟩
  · rw [hmap, TlsWriter.recordsOf, List.flatMap_map]
    have : (chunks RECORD_MAX_LEN data).flatMap (fun c => c) = (chunks RECORD_MAX_LEN data).flatten := by simp
    exact this.trans (chunks_flatten (by decide) data)

/-- C13 applies to the cipher of the crate: any key, any IV, any common sequence number. -/
example (m m' : Mode) (key iv : Bytes) (k : UInt64) (hk : key.length = 32) :
    Synced { writer := {}, encryptor := some (Encryptor.chacha m key), writeCount := k, iv := some iv }
      { reader := ⟨[]⟩, decryptor := some (Decryptor.chacha m' key), readCount := k, iv := some iv } :=
  ⟨rfl, rfl, Or.inr ⟨_, _, rfl, rfl, matching_chacha m m' key hk⟩⟩

example : Synced (TlsWriter.new {}) (TlsReader.new ⟨[]⟩) := ⟨rfl, rfl, Or.inl ⟨rfl, rfl⟩⟩

/-- C14: whenever `write_data` succeeds, it wrote ⌈n/2^14⌉ records, each with a non-empty fragment of at most 2^14 bytes of the data, in order
(`fs` are the plaintext fragments, `cs` the fragments on the wire, equal to `fs` without encryption). -/
theorem C14_fragmentation (m : Mode) (ty : ContentType) (data : Bytes) (w w' : TlsWriter) (h : (TlsWriter.writeData m ty data).run w = (.ok (), w')) :
    ∃ fs cs : List Bytes, fs.flatten = data ∧ (∀ f ∈ fs, f ≠ [] ∧ f.length ≤ 2 ^ 14) ∧ fs.length = (data.length + 16383) / 16384 ∧ cs.length = fs.length ∧
      w'.writer.wire = w.writer.wire ++ cs.flatMap (recordBytes ty.toU8 3 3) ∧
      (match w.encryptor with
        | none => cs = fs ∧ w'.calls = w.calls
        | some _ => ∃ new, w'.calls = w.calls ++ new ∧ new.map (·.plain) = fs ∧ new.map (·.out) = cs) := by
  obtain ⟨sent, hsent, hmap⟩ := TlsWriter.writeData_inv h
  have hfs : sent.map (fun rc => rc.1.fragment) = chunks RECORD_MAX_LEN data := by
    have := congrArg (List.map Record.fragment) hmap
    rw [TlsWriter.recordsOf, List.map_map, List.map_map] at this
    simpa [Function.comp_def] using this
  have htys : ∀ rc ∈ sent, rc.1.contentType = ty ∧ rc.1.verMajor = 3 ∧ rc.1.verMinor = 3 := by
    intro rc hrc
    have : rc.1 ∈ TlsWriter.recordsOf ty (chunks RECORD_MAX_LEN data) := by rw [← hmap]; exact List.mem_map.mpr ⟨rc, hrc, rfl⟩
    obtain ⟨c, _, he⟩ := List.mem_map.mp this
    rw [← he]
    exact ⟨rfl, rfl, rfl⟩
  refine ⟨chunks RECORD_MAX_LEN data, sent.map (·.2), chunks_flatten (by decide) data, ?_, chunks_count (by decide) data, ?_, ?_, ?_⟩
  · intro f hf
    exact ⟨chunks_ne_nil (by decide) data f hf, chunks_length_le (by decide) data f hf⟩
  · rw [← hfs]; simp
  · rw [hsent.wire, List.flatMap_map]
    congr 1
    rw [List.flatMap_def, List.flatMap_def]
    congr 1
    apply List.map_congr_left
    intro rc hrc
    obtain ⟨h1, h2, h3⟩ := htys rc hrc
    rw [h1, h2, h3]
  · rw [← hfs]
    clear hfs htys hmap h
    induction hsent with
    | nil => cases h : TlsWriter.encryptor _ <;> simp
    | @cons s s1 s' rec c recs hw hrest ih =>
      have hcalls := hw.calls
      have hseal := hw.seal_ok
      unfold TlsWriter.logged at hcalls
      unfold TlsWriter.sealed at hseal
      rw [hw.encryptor] at ih
      cases he : s.encryptor with
      | none =>
        rw [he] at hcalls hseal ih
        simp only [Res.ok.injEq] at hcalls hseal ih ⊢
        rw [List.map_cons, List.map_cons, ih.1, ih.2, hcalls, hseal]
        exact ⟨rfl, rfl⟩
      | some e =>
        rw [he] at hcalls ih
        obtain ⟨new, h1, h2, h3⟩ := ih
        refine ⟨⟨s.nonce, rec.fragment, s.ad rec, c⟩ :: new, ?_, ?_, ?_⟩
        · rw [h1, hcalls]; simp
        · rw [List.map_cons, List.map_cons, h2]
        · rw [List.map_cons, List.map_cons, h3]

/-- C14: with the cipher of the crate or without encryption, and a transport that takes everything, `write_data` succeeds for every length. -/
theorem C14_succeeds (m : Mode) (ty : ContentType) (data : Bytes) (w : TlsWriter)
    (he : w.encryptor = none ∨ ∃ m' key, key.length = 32 ∧ w.encryptor = some (Encryptor.chacha m' key)) (hf : w.writer.faults = [])
    (hn : w.writeCount.toNat + (data.length + 16383) / 16384 < 2 ^ 64) :
    ∃ w', (TlsWriter.writeData m ty data).run w = (.ok (), w') := by
  have hcount : (chunks RECORD_MAX_LEN data).length = (data.length + 16383) / 16384 := chunks_count (by decide) data
  refine TlsWriter.writeChunks_ok (TlsWriter.chunk_bound data) ?_ hf (by rw [hcount]; exact hn)
  intro e hee n p ad hnl hp
  rcases he with he | ⟨m', key, hk, he⟩
  · rw [hee] at he; cases he
  · rw [hee] at he
    cases he
    have hE : ENC_RECORD_MAX_LEN = 18432 := rfl
    have hR : RECORD_MAX_LEN = 16384 := rfl
    obtain ⟨c, h1, h2, _⟩ := C37_roundtrip m' m' key n p ad hk hnl (by omega)
    exact ⟨c, h1, by omega⟩

/-! ### C16: nonce and additional data -/

/-- C16, writing: a record written while the counter is `k` makes exactly one encryptor call, with the RFC 7905 nonce for `k` and the RFC 5246
additional data for `k`; its result goes on the wire and the counter becomes `k + 1`. -/
theorem C16_writer (m : Mode) (record : Record) (w w' : TlsWriter) (e : Encryptor) (iv : Bytes) (he : w.encryptor = some e) (hiv : w.iv = some iv)
    (hl : iv.length = 12) (h : (TlsWriter.writeRecord m record).run w = (.ok (), w')) :
    ∃ c, e.encrypt (recordNonce iv w.writeCount.toNat) record.fragment
          (recordAad w.writeCount.toNat record.contentType.toU8 record.verMajor record.verMinor record.fragment.length) = .ok c ∧
      w'.calls = w.calls ++ [⟨recordNonce iv w.writeCount.toNat, record.fragment,
          recordAad w.writeCount.toNat record.contentType.toU8 record.verMajor record.verMinor record.fragment.length, c⟩] ∧
      w'.writer.wire = w.writer.wire ++ recordBytes record.contentType.toU8 record.verMajor record.verMinor c ∧
      w'.writeCount = w.writeCount + 1 ∧ w'.encryptor = some e ∧ w'.iv = some iv := by
  obtain ⟨c, hw⟩ := TlsWriter.writeRecord_inv h
  have hs := hw.seal_ok
  have hc := hw.calls
  have hn : w.nonce = recordNonce iv w.writeCount.toNat := by
    rw [TlsWriter.nonce_eq, hiv]; exact xorIv_spec _ _ hl
  unfold TlsWriter.sealed at hs
  unfold TlsWriter.logged at hc
  rw [he] at hs hc
  simp only [hn, TlsWriter.ad_eq] at hs hc
  exact ⟨c, hs, hc, hw.wire, hw.count, by rw [hw.encryptor, he], by rw [hw.iv, hiv]⟩

/-- C16, reading: a record is delivered while the counter is `k` only if the decryptor accepted its fragment under the RFC 7905 nonce for `k` and
the RFC 5246 additional data for `k`; the counter becomes `k + 1`. -/
theorem C16_reader (m : Mode) (s s' : TlsReader) (d : Decryptor) (iv : Bytes) (rec : Record) (hd : s.decryptor = some d) (hiv : s.iv = some iv)
    (hl : iv.length = 12) (h : (readRecord m).run s = (.ok rec, s')) :
    ∃ c, s.reader.stream = ofBytes (recordBytes rec.contentType.toU8 rec.verMajor rec.verMinor c) ++ s'.reader.stream ∧ d.macLen ≤ c.length ∧
      d.decrypt (recordNonce iv s.readCount.toNat) c
        (recordAad s.readCount.toNat rec.contentType.toU8 rec.verMajor rec.verMinor (c.length - d.macLen)) = .ok rec.fragment ∧
      s'.readCount = s.readCount + 1 ∧ s'.decryptor = some d ∧ s'.iv = some iv := by
  obtain ⟨ty, a, b, f, r', _, hs, hu, rfl⟩ := readRecord_inv h
  have hn : s.nonce = recordNonce iv s.readCount.toNat := by
    rw [TlsReader.nonce_eq, hiv]; exact xorIv_spec _ _ hl
  unfold TlsReader.unprotect at hu
  rw [hd] at hu
  simp only [hn, TlsReader.ad_eq] at hu
  split at hu
  · cases hu
  · rename_i hlen
    obtain ⟨p, h1, h2⟩ := Res.bind_eq_ok.mp hu
    split at h2
    · cases h2
    · rename_i hp
      rw [Record.new_ok _ _ _ _ (by omega)] at h2
      cases h2
      exact ⟨f, hs, by omega, h1, rfl, hd, hiv⟩

/-- C16, reading, refusal: if the decryptor refuses under the nonce and additional data for `k`, the record is refused with its error. -/
theorem C16_reader_refuses (m : Mode) (s : TlsReader) (d : Decryptor) (iv : Bytes) (ty : ContentType) (a b : UInt8) (c : Bytes) (l : List Sym) (k : TlsErrorKind)
    (hd : s.decryptor = some d) (hiv : s.iv = some iv) (hl : iv.length = 12) (hlen : d.macLen ≤ c.length) (hc : c.length ≤ 2 ^ 14 + 2048)
    (hs : s.reader.stream = ofBytes (recordBytes ty.toU8 a b c) ++ l)
    (hdec : d.decrypt (recordNonce iv s.readCount.toNat) c (recordAad s.readCount.toNat ty.toU8 a b (c.length - d.macLen)) = .err k) :
    ∃ r', (readRecord m).run s = (.err k, { s with reader := r' }) ∧ r'.stream = l := by
  obtain ⟨r', h1, h2⟩ := readRecord_front (m := m) (show c.length ≤ ENC_RECORD_MAX_LEN by unfold ENC_RECORD_MAX_LEN; omega) hs
  refine ⟨r', ?_, h1⟩
  rw [h2, finish_run]
  have hn : s.nonce = recordNonce iv s.readCount.toNat := by
    rw [TlsReader.nonce_eq, hiv]; exact xorIv_spec _ _ hl
  have hu : TlsReader.unprotect { s with reader := r' } ty a b c = .err k := by
    have : TlsReader.unprotect { s with reader := r' } ty a b c = s.unprotect ty a b c := rfl
    rw [this]
    unfold TlsReader.unprotect
    rw [hd]
    simp only [hn, TlsReader.ad_eq]
    rw [if_neg (by omega), hdec]
    rfl
  rw [hu]

/-- The nonce is as in RFC 7905: for the first record it is the IV itself. -/
example : recordNonce [1, 2, 3, 4, 5, 6, 7, 8, 9, 10, 11, 12] 0 = [1, 2, 3, 4, 5, 6, 7, 8, 9, 10, 11, 12] := by decide
example : recordNonce [1, 2, 3, 4, 5, 6, 7, 8, 9, 10, 11, 12] 0x0102 = [1, 2, 3, 4, 5, 6, 7, 8, 9, 10, 10, 14] := by decide

/-! ### C18: over-long records -/

/-- C18: a header announcing more than 2^14+2048 bytes is refused. -/
theorem C18_header_too_long (m : Mode) (s : TlsReader) (ty : ContentType) (a b : UInt8) (n : Nat) (l : List Sym) (h1 : 2 ^ 14 + 2048 < n) (h2 : n < 2 ^ 16)
    (hs : s.reader.stream = ofBytes ([ty.toU8, a, b] ++ beBytes 2 n) ++ l) : ((readRecord m).run s).1 = .err .RecordOverflow := by
  have hE : ENC_RECORD_MAX_LEN = 18432 := rfl
  have hs1 : s.reader.stream = ofBytes [ty.toU8] ++ (ofBytes [a] ++ (ofBytes [b] ++ (ofBytes (beBytes 2 n) ++ l))) := by
    rw [hs]; simp [ofBytes]
  obtain ⟨r1, h1', hs1⟩ := Reader.readU8_ok hs1
  obtain ⟨r2, h2', hs2⟩ := Reader.readU8_ok hs1
  obtain ⟨r3, h3, hs3⟩ := Reader.readU8_ok hs2
  obtain ⟨r4, h4, hs4⟩ := Reader.readBeU16_ok h2 hs3
  have hlen : (UInt16.ofNat n).toNat = n := by simp only [UInt16.toNat_ofNat']; omega
  rw [readRecord, St.bind_of_ok (io_ok h1')]
  simp only [ContentType.ofU8_toU8]
  rw [St.bind_of_ok (io_ok (s := { s with reader := r1 }) h2'), St.bind_of_ok (io_ok (s := { s with reader := r2 }) h3),
    St.bind_of_ok (io_ok (s := { s with reader := r3 }) h4), if_pos (by rw [hlen]; omega)]
  rfl

/-- C18: without encryption, a record of more than 2^14 bytes is refused. -/
theorem C18_plain_too_long (m : Mode) (s : TlsReader) (ty : ContentType) (a b : UInt8) (f : Bytes) (l : List Sym) (hd : s.decryptor = none)
    (h1 : 2 ^ 14 < f.length) (h2 : f.length < 2 ^ 16) (hs : s.reader.stream = ofBytes (recordBytes ty.toU8 a b f) ++ l) :
    ((readRecord m).run s).1 = .err .RecordOverflow := by
  have hE : ENC_RECORD_MAX_LEN = 18432 := rfl
  have hR : RECORD_MAX_LEN = 16384 := rfl
  by_cases h : f.length ≤ ENC_RECORD_MAX_LEN
  · obtain ⟨r', _, h3⟩ := readRecord_front (m := m) h hs
    rw [h3, finish_run]
    have : TlsReader.unprotect { s with reader := r' } ty a b f = .err .RecordOverflow := by
      unfold TlsReader.unprotect
      simp only [hd]
      rw [if_pos (by omega)]
    rw [this]
  · exact C18_header_too_long m s ty a b f.length (ofBytes f ++ l) (by omega) h2 (by rw [hs, recordBytes, ofBytes_append, List.append_assoc])

/-- C18: no record with more than 2^14 bytes of plaintext is ever delivered. -/
theorem C18_never_delivered (m : Mode) (s s' : TlsReader) (rec : Record) (h : (readRecord m).run s = (.ok rec, s')) : rec.fragment.length ≤ 2 ^ 14 := by
  obtain ⟨ty, a, b, f, r', _, _, hu, _⟩ := readRecord_inv h
  have key : ∀ {ty a b f} {rec : Record}, Record.new ty a b f = .ok rec → rec.fragment.length ≤ 2 ^ 14 := by
    intro ty a b f rec h
    unfold Record.new at h
    split at h
    · cases h
    · rename_i hl
      cases h
      simpa [RECORD_MAX_LEN] using hl
  unfold TlsReader.unprotect at hu
  split at hu
  · split at hu
    · cases hu
    · exact key hu
  · split at hu
    · cases hu
    · obtain ⟨p, _, h2⟩ := Res.bind_eq_ok.mp hu
      split at h2
      · cases h2
      · exact key h2

/-- C18 and C19 are false with encryption: a record with a valid tag whose plaintext is longer than 2^14 (up to 2^14+2032) bytes makes
`read_record` panic instead of returning `RecordOverflow`, for every key, IV and sequence number. -/
theorem C18_encrypted_too_long_panics (m m' : Mode) (key iv p : Bytes) (k : UInt64) (ty : ContentType) (hk : key.length = 32)
    (h1 : 2 ^ 14 < p.length) (h2 : p.length ≤ 2 ^ 14 + 2032) :
    ∃ c, Aead.encrypt m' key (nonceFor (some iv) k) p (recordAad k.toNat ty.toU8 3 3 p.length) = .ok c ∧
      ∀ (s : TlsReader) (l : List Sym), s.decryptor = some (Decryptor.chacha m key) → s.iv = some iv → s.readCount = k →
        s.reader.stream = ofBytes (recordBytes ty.toU8 3 3 c) ++ l → ((readRecord m).run s).1 = .panic := by
  have hE : ENC_RECORD_MAX_LEN = 18432 := rfl
  have hR : RECORD_MAX_LEN = 16384 := rfl
  obtain ⟨c, e1, e2, e3⟩ := C37_roundtrip m' m key (nonceFor (some iv) k) p (recordAad k.toNat ty.toU8 3 3 p.length) hk (nonceFor_length _ _) (by omega)
  refine ⟨c, e1, fun s l hd hiv hrc hs => ?_⟩
  obtain ⟨r', _, h3⟩ := readRecord_front (m := m) (by omega) hs
  rw [h3, finish_run]
  have : TlsReader.unprotect { s with reader := r' } ty 3 3 c = .panic := by
    have : TlsReader.unprotect { s with reader := r' } ty 3 3 c = s.unprotect ty 3 3 c := rfl
    rw [this]
    unfold TlsReader.unprotect
    simp only [hd, TlsReader.nonce_eq, TlsReader.ad_eq, hiv, hrc]
    have hm : (Decryptor.chacha m key).macLen = 16 := rfl
    rw [hm, if_neg (by omega), e2, Nat.add_sub_cancel]
    have : (Decryptor.chacha m key).decrypt (nonceFor (some iv) k) c (recordAad k.toNat ty.toU8 3 3 p.length) = .ok p := e3
    rw [this, Res.bind_ok, if_pos (by omega)]
  rw [this]

/-- C18, the part that holds: over-long records are refused with `RecordOverflow` as far as the length on the wire shows it, and are never delivered.
Missing: an encrypted record whose plaintext is longer than 2^14 bytes (`C18_encrypted_too_long_panics`). -/
theorem C18_refused_partial (m : Mode) (s : TlsReader) (ty : ContentType) (a b : UInt8) (f : Bytes) (l : List Sym)
    (h1 : (s.decryptor = none ∧ 2 ^ 14 < f.length) ∨ 2 ^ 14 + 2048 < f.length) (h2 : f.length < 2 ^ 16)
    (hs : s.reader.stream = ofBytes (recordBytes ty.toU8 a b f) ++ l) : ((readRecord m).run s).1 = .err .RecordOverflow := by
  rcases h1 with ⟨h3, h4⟩ | h3
  · exact C18_plain_too_long m s ty a b f l h3 h4 h2 hs
  · exact C18_header_too_long m s ty a b f.length (ofBytes f ++ l) h3 h2 (by rw [hs, recordBytes, ofBytes_append, List.append_assoc])

/-! ### C19: no panics -/

/-- How a call of `read_record` can panic: the sequence number overflows, or the decryptor accepted a fragment of the stream and the plaintext is
over-long, or the decryptor itself panicked. -/
theorem readRecord_panic {m : Mode} {s s' : TlsReader} (h : (readRecord m).run s = (.panic, s')) :
    2 ^ 64 ≤ s.readCount.toNat + 1 ∨
    ∃ d ty a b f l, s.decryptor = some d ∧ f.length ≤ ENC_RECORD_MAX_LEN ∧ s.reader.stream = ofBytes (recordBytes ty a b f) ++ l ∧
      ∃ n ad, n.length = 12 ∧ ((∃ p, d.decrypt n f ad = .ok p ∧ 2 ^ 14 < p.length) ∨ d.decrypt n f ad = .panic) := by
  have ho := readRecord_outcome m s
  rw [h] at ho
  generalize hx : (Res.panic, s') = x at ho
  cases ho with
  | io => simp at hx
  | badType => simp at hx
  | tooLong => simp at hx
  | full ty a b f r' hl hs =>
    rw [finish_run] at hx
    have e : TlsReader.unprotect { s with reader := r' } ty a b f = s.unprotect ty a b f := rfl
    rw [e] at hx
    cases hu : s.unprotect ty a b f with
    | ok r =>
      rw [hu] at hx
      simp only at hx
      rcases TlsReader.bump_cases m { s with reader := r' } with hb | ⟨hb, hc⟩
      · rw [hb] at hx; simp at hx
      · exact Or.inl hc
    | err k => rw [hu] at hx; simp at hx
    | diverge => rw [hu] at hx; simp at hx
    | panic =>
      right
      unfold TlsReader.unprotect at hu
      have hnew : ∀ {f : Bytes}, f.length ≤ RECORD_MAX_LEN → Record.new ty a b f ≠ .panic := by
        intro f hf; rw [Record.new_ok _ _ _ _ hf]; simp
      split at hu
      · split at hu
        · cases hu
        · exact absurd hu (hnew (by omega))
      · rename_i d hd
        split at hu
        · cases hu
        · refine ⟨d, ty.toU8, a, b, f, r'.stream, hd, hl, hs, s.nonce, s.ad ty a b (f.length - d.macLen),
            by rw [TlsReader.nonce_eq, nonceFor_length], ?_⟩
          cases hdec : d.decrypt s.nonce f (s.ad ty a b (f.length - d.macLen)) with
          | ok p =>
            rw [hdec, Res.bind_ok] at hu
            split at hu
            · rename_i hp; exact Or.inl ⟨p, rfl, by simpa [RECORD_MAX_LEN] using hp⟩
            · exact absurd hu (hnew (by omega))
          | err k => rw [hdec] at hu; cases hu
          | panic => exact Or.inr rfl
          | diverge => rw [hdec] at hu; cases hu

theorem readRecord_diverge {m : Mode} {s s' : TlsReader} (h : (readRecord m).run s = (.diverge, s')) :
    ∃ d n f ad, s.decryptor = some d ∧ f.length ≤ ENC_RECORD_MAX_LEN ∧ n.length = 12 ∧ d.decrypt n f ad = .diverge := by
  have ho := readRecord_outcome m s
  rw [h] at ho
  generalize hx : (Res.diverge, s') = x at ho
  cases ho with
  | io => simp at hx
  | badType => simp at hx
  | tooLong => simp at hx
  | full ty a b f r' hl hs =>
    rw [finish_run] at hx
    have e : TlsReader.unprotect { s with reader := r' } ty a b f = s.unprotect ty a b f := rfl
    rw [e] at hx
    cases hu : s.unprotect ty a b f with
    | ok r =>
      rw [hu] at hx
      simp only at hx
      rcases TlsReader.bump_cases m { s with reader := r' } with hb | ⟨hb, hc⟩
      · rw [hb] at hx; simp at hx
      · rw [hb] at hx; simp at hx
    | err k => rw [hu] at hx; simp at hx
    | panic => rw [hu] at hx; simp at hx
    | diverge =>
      unfold TlsReader.unprotect at hu
      have hnew : ∀ {f : Bytes}, Record.new ty a b f ≠ .diverge := by
        intro f; unfold Record.new; split <;> simp
      split at hu
      · split at hu
        · cases hu
        · exact absurd hu hnew
      · rename_i d hd
        split at hu
        · cases hu
        · refine ⟨d, s.nonce, f, s.ad ty a b (f.length - d.macLen), hd, hl, by rw [TlsReader.nonce_eq, nonceFor_length], ?_⟩
          cases hdec : d.decrypt s.nonce f (s.ad ty a b (f.length - d.macLen)) with
          | ok p =>
            rw [hdec, Res.bind_ok] at hu
            split at hu
            · cases hu
            · exact absurd hu hnew
          | err k => rw [hdec] at hu; cases hu
          | panic => rw [hdec] at hu; cases hu
          | diverge => rfl

theorem decrypt_chacha_returns (m : Mode) (key n f ad : Bytes) (hk : key.length = 32) (hn : n.length = 12) (hf : f.length ≤ ENC_RECORD_MAX_LEN) :
    ((Decryptor.chacha m key).decrypt n f ad).Returns := by
  have hE : ENC_RECORD_MAX_LEN = 18432 := rfl
  have : (Decryptor.chacha m key).decrypt n f ad = Aead.decrypt m key n f ad := rfl
  rw [this, C39_decrypt_is_rfc8439 m key n f ad hk hn (by omega)]
  cases Spec.Aead.openMsg key n ad f <;> trivial

theorem Took.room {s s' : TlsReader} {recs} (h : Took s recs s') (k : Nat) (hn : s.readCount.toNat + countBytes s.reader.stream + k < 2 ^ 64) :
    s'.readCount.toNat + countBytes s'.reader.stream + k < 2 ^ 64 := by
  induction h with
  | nil a b c d => rw [a, c]; exact hn
  | cons hl hs _ _ hc _ _ ih =>
    apply ih
    rw [hs, countBytes_append, countBytes_ofBytes, recordBytes_length] at hn
    have h1 : (1 : UInt64).toNat = 1 := rfl
    rw [hc, UInt64.toNat_add, h1]
    omega

theorem Took.decryptor {s s' : TlsReader} {recs} (h : Took s recs s') : s'.decryptor = s.decryptor := by
  induction h with
  | nil _ b _ _ => exact b
  | cons _ _ _ h _ _ _ ih => exact ih.trans h

theorem Took.suffix {s s' : TlsReader} {recs} (h : Took s recs s') : ∃ p, s.reader.stream = p ++ s'.reader.stream := by
  induction h with
  | nil a _ _ _ => exact ⟨[], by rw [a]; rfl⟩
  | cons _ hs _ _ _ _ _ ih =>
    obtain ⟨p, hp⟩ := ih
    exact ⟨_, by rw [hs, hp, ← List.append_assoc]⟩

/-- A reader as the crate sets it up: without encryption, or with the crate's cipher under some 32-byte key. -/
def CrateReader (s : TlsReader) : Prop := s.decryptor = none ∨ ∃ m key, key.length = 32 ∧ s.decryptor = some (Decryptor.chacha m key)

/-- The stream contains, somewhere, a run of bytes that the decryptor opens to an over-long plaintext. -/
def HasOverlong (s : TlsReader) : Prop :=
  ∃ d p f l, s.decryptor = some d ∧ s.reader.stream = p ++ ofBytes f ++ l ∧ ∃ n ad plain, d.decrypt n f ad = .ok plain ∧ 2 ^ 14 < plain.length

theorem readMessage_returns (m : Mode) (s : TlsReader) (hc : CrateReader s) (hn : s.readCount.toNat + countBytes s.reader.stream + 1 < 2 ^ 64)
    (ho : ¬ HasOverlong s) : ((readMessage m).run s).1.Returns := by
  rcases hr : (readMessage m).run s with ⟨x, s'⟩
  cases x with
  | ok msg => trivial
  | err k => trivial
  | panic =>
    exfalso
    obtain ⟨recs, s1, ht, hp⟩ := (readMessage_fail hr (by simp)).panics rfl
    have hd1 := Took.decryptor ht
    have hcount := Took.room ht 1 hn
    obtain ⟨pre, hpre⟩ := Took.suffix ht
    rcases readRecord_panic hp with h | ⟨d, ty, a, b, f, l, h1, h2, h3, n, ad, h4, h5⟩
    · omega
    · rw [hd1] at h1
      rcases h5 with ⟨p, h6, h7⟩ | h6
      · refine ho ⟨d, pre ++ ofBytes ([ty, a, b] ++ beBytes 2 f.length), f, l, h1, ?_, n, ad, p, h6, h7⟩
        rw [hpre, h3, recordBytes, ofBytes_append]
        simp
      · rcases hc with hc | ⟨m', key, hk, hc⟩
        · rw [hc] at h1; cases h1
        · rw [hc] at h1
          cases h1
          have := decrypt_chacha_returns m' key n f ad hk h4 h2
          rw [h6] at this
          exact this
  | diverge =>
    exfalso
    obtain ⟨recs, s1, ht, hp⟩ := (readMessage_fail hr (by simp)).diverges rfl
    obtain ⟨d, n, f, ad, h1, h2, h3, h4⟩ := readRecord_diverge hp
    rw [Took.decryptor ht] at h1
    rcases hc with hc | ⟨m', key, hk, hc⟩
    · rw [hc] at h1; cases h1
    · rw [hc] at h1
      cases h1
      have := decrypt_chacha_returns m' key n f ad hk h3 h2
      rw [h4] at this
      exact this

theorem readHandshake_of_message (m : Mode) (s : TlsReader) (h : ((readMessage m).run s).1.Returns) :
    ((readHandshake m).run s).1.Returns ∧ ((readChangeCipherSpec m).run s).1.Returns := by
  rw [readHandshake, readChangeCipherSpec, St.bind_run, St.bind_run]
  rcases hr : (readMessage m).run s with ⟨x, s'⟩
  rw [hr] at h
  cases x with
  | ok msg => cases msg <;> exact ⟨trivial, trivial⟩
  | err k => exact ⟨trivial, trivial⟩
  | panic => exact h.elim
  | diverge => exact h.elim

/-- C19, the part that holds: whatever arrives, no call panics and every call ends, unless the stream contains a run of bytes that opens under
the session key to more than 2^14 bytes of plaintext (only a holder of the key can make one; see `C18_encrypted_too_long_panics`). The other
hypothesis says that the 64-bit record counter does not run over. Missing: streams with such a record. -/
theorem C19_no_panic_partial (m : Mode) (s : TlsReader) (hc : CrateReader s) (hn : s.readCount.toNat + countBytes s.reader.stream + 1 < 2 ^ 64)
    (ho : ¬ HasOverlong s) :
    ((readMessage m).run s).1.Returns ∧ ((readHandshake m).run s).1.Returns ∧ ((readChangeCipherSpec m).run s).1.Returns :=
  ⟨readMessage_returns m s hc hn ho, readHandshake_of_message m s (readMessage_returns m s hc hn ho)⟩

/-- C19 without encryption: no bytes at all make a call panic. -/
theorem C19_no_panic_plaintext (m : Mode) (s : TlsReader) (hd : s.decryptor = none) (hn : s.readCount.toNat + countBytes s.reader.stream + 1 < 2 ^ 64) :
    ((readMessage m).run s).1.Returns ∧ ((readHandshake m).run s).1.Returns ∧ ((readChangeCipherSpec m).run s).1.Returns :=
  C19_no_panic_partial m s (Or.inl hd) hn (by rintro ⟨d, _, _, _, h, _⟩; rw [hd] at h; cases h)

/-- C19 with encryption is false: bytes on the network for which `read_message` panics exist for every key and IV. -/
theorem C19_panic_exists (m : Mode) (key iv : Bytes) (hk : key.length = 32) :
    ∃ bytes : Bytes, ((readMessage m).run { reader := ⟨[.data bytes]⟩, decryptor := some (Decryptor.chacha m key), iv := some iv }).1 = .panic := by
  have hpl : (List.replicate 16385 (0 : UInt8)).length = 16385 := List.length_replicate
  obtain ⟨c, -, h⟩ := C18_encrypted_too_long_panics m m key iv (List.replicate 16385 0) 0 .ApplicationDataTy hk (by rw [hpl]; decide) (by rw [hpl]; decide)
  refine ⟨recordBytes 23 3 3 c, ?_⟩
  have hs : Reader.stream ⟨[.data (recordBytes 23 3 3 c)]⟩ = ofBytes (recordBytes 23 3 3 c) ++ [] := by
    rw [Reader.stream_data _ (by simp [recordBytes])]; rfl
  have hp := h { reader := ⟨[.data (recordBytes 23 3 3 c)]⟩, decryptor := some (Decryptor.chacha m key), iv := some iv } [] rfl rfl rfl hs
  rw [readMessage, St.bind_run]
  have hg : (onBuffer HandshakeBuffer.getMessage).run { reader := ⟨[.data (recordBytes 23 3 3 c)]⟩, decryptor := some (Decryptor.chacha m key), iv := some iv } =
    (.ok none, { reader := ⟨[.data (recordBytes 23 3 3 c)]⟩, decryptor := some (Decryptor.chacha m key), iv := some iv }) := rfl
  rw [hg]
  simp only [St.get_run, St.bind_run, messageLoop, messageStep]
  rcases hr : (readRecord m).run { reader := ⟨[.data (recordBytes 23 3 3 c)]⟩, decryptor := some (Decryptor.chacha m key), iv := some iv } with ⟨x, s'⟩
  rw [hr] at hp
  simp only at hp
  subst hp
  rfl

example : CrateReader (TlsReader.new ⟨[.data [22, 3, 3, 0, 0]]⟩) := Or.inl rfl
example : ((readMessage .debug).run (TlsReader.new ⟨[.data [22, 3, 3, 0, 0]]⟩)).1 = .err .UnexpectedMessage := by decide +kernel

/-! ### C20: alerts and ChangeCipherSpec -/

theorem readMessage_single {m : Mode} {s s1 : TlsReader} {rec : Record} {x : Res Message} (hb : s.handshakeBuffer = {}) (h : (readRecord m).run s = (.ok rec, s1))
    (hx : (rec.contentType = .ChangeCipherSpecTy ∧ ccsMessage rec.fragment = x) ∨ (rec.contentType = .AlertTy ∧ alertMessage rec.fragment = x)) :
    ((readMessage m).run s).1 = x := by
  rw [readMessage, St.bind_run]
  have hg : (onBuffer HandshakeBuffer.getMessage).run s = (.ok none, s) := by
    obtain ⟨r, d, c, b, iv⟩ := s
    simp only at hb
    subst hb
    rfl
  rw [hg]
  simp only [St.get_run, St.bind_run, messageLoop, messageStep]
  rw [h]
  rcases hx with ⟨h1, h2⟩ | ⟨h1, h2⟩
  · simp only [h1, h2, St.bind_run, St.lift_run]
    cases x <;> rfl
  · simp only [h1, h2, St.bind_run, St.lift_run]
    cases x <;> rfl

/-- C20: a ChangeCipherSpec record is accepted exactly when its payload is `[1]`; otherwise the answer is `UnexpectedMessage`. -/
theorem C20_change_cipher_spec (m : Mode) (s s1 : TlsReader) (rec : Record) (hb : s.handshakeBuffer = {}) (h : (readRecord m).run s = (.ok rec, s1))
    (hty : rec.contentType = .ChangeCipherSpecTy) :
    ((readMessage m).run s).1 = if rec.fragment = [1] then .ok .ChangeCipherSpecMessage else .err .UnexpectedMessage := by
  rw [readMessage_single hb h (Or.inl ⟨hty, rfl⟩), ccsMessage]
  match rec.fragment with
  | [] => rfl
  | [a] =>
    by_cases ha : a = 1
    · simp [ha]
    · simp [ha]
  | a :: b :: l => simp

/-- The numbers of RFC 5246 section 7.2 and RFC 6066 section 9. -/
def alertNumber : AlertDescription → UInt8
  | .close_notify => 0 | .unexpected_message => 10 | .bad_record_mac => 20 | .decryption_failed_RESERVED => 21 | .record_overflow => 22
  | .decompression_failure => 30 | .handshake_failure => 40 | .no_certificate_RESERVED => 41 | .bad_certificate => 42
  | .unsupported_certificate => 43 | .certificate_revoked => 44 | .certificate_expired => 45 | .certificate_unknown => 46
  | .illegal_parameter => 47 | .unknown_ca => 48 | .access_denied => 49 | .decode_error => 50 | .decrypt_error => 51
  | .export_restriction_RESERVED => 60 | .protocol_version => 70 | .insufficient_security => 71 | .internal_error => 80
  | .user_canceled => 90 | .no_renegotiation => 100 | .unsupported_extension => 110 | .certificate_unobtainable => 111
  | .unrecognized_name => 112 | .bad_certificate_status_response => 113 | .bad_certificate_hash_value => 114

/-- The numbers of RFC 5246 section 7.2. -/
def levelNumber : AlertLevel → UInt8
  | .warning => 1 | .fatal => 2

theorem level_iff (n : UInt8) (l : AlertLevel) : TlsEnum.ofCode n.toNat = some l ↔ n = levelNumber l := by
  constructor
  · intro h
    have := List.find?_some h
    simp only [beq_iff_eq] at this
    apply UInt8.toNat_inj.mp
    rw [← this]
    cases l <;> rfl
  · rintro rfl
    cases l <;> rfl

theorem description_iff (n : UInt8) (d : AlertDescription) : TlsEnum.ofCode n.toNat = some d ↔ n = alertNumber d := by
  constructor
  · intro h
    have := List.find?_some h
    simp only [beq_iff_eq] at this
    apply UInt8.toNat_inj.mp
    rw [← this]
    cases d <;> rfl
  · rintro rfl
    cases d <;> rfl

theorem alertMessage_cons (x y : UInt8) (l : Bytes) : alertMessage (x :: y :: l) =
    match (TlsEnum.ofCode x.toNat : Option AlertLevel), (TlsEnum.ofCode y.toNat : Option AlertDescription) with
    | some level, some desc => .ok (.AlertMessage ⟨level, desc⟩)
    | _, _ => .err .UnexpectedMessage := by
  unfold alertMessage
  rw [if_neg (by simp), if_neg (by simp)]
  simp only [List.getD_cons_zero, List.getD_cons_succ]
  cases (TlsEnum.ofCode x.toNat : Option AlertLevel) <;> cases (TlsEnum.ofCode y.toNat : Option AlertDescription) <;> rfl

/-- C20, the part that holds: an alert record is accepted exactly when its payload begins with the numbers of a known level and description, and is
delivered as that alert; everything else is `UnexpectedMessage`. Missing: payloads of more than two bytes should be refused
(`C20_long_alert_accepted`). -/
theorem C20_alert_partial (m : Mode) (s s1 : TlsReader) (rec : Record) (hb : s.handshakeBuffer = {}) (h : (readRecord m).run s = (.ok rec, s1))
    (hty : rec.contentType = .AlertTy) :
    (∀ a, ((readMessage m).run s).1 = .ok (.AlertMessage a) ↔ ∃ rest, rec.fragment = levelNumber a.level :: alertNumber a.description :: rest) ∧
    ((¬ ∃ a rest, rec.fragment = levelNumber a.level :: alertNumber (Alert.description a) :: rest) → ((readMessage m).run s).1 = .err .UnexpectedMessage) := by
  rw [readMessage_single hb h (Or.inr ⟨hty, rfl⟩)]
  match rec.fragment with
  | [] => simp [alertMessage]
  | [a] => simp [alertMessage]
  | x :: y :: l =>
    rw [alertMessage_cons]
    simp only [List.cons.injEq]
    cases hx : (TlsEnum.ofCode x.toNat : Option AlertLevel) with
    | none =>
      have hx' : ∀ lv, x ≠ levelNumber lv := fun lv e => by rw [(level_iff x lv).mpr e] at hx; cases hx
      exact ⟨fun a => ⟨fun e => (by simp at e), fun ⟨_, e, _⟩ => absurd e (hx' _)⟩, fun _ => rfl⟩
    | some lv =>
      cases hy : (TlsEnum.ofCode y.toNat : Option AlertDescription) with
      | none =>
        have hy' : ∀ d, y ≠ alertNumber d := fun d e => by rw [(description_iff y d).mpr e] at hy; cases hy
        exact ⟨fun a => ⟨fun e => (by simp at e), fun ⟨_, _, e, _⟩ => absurd e (hy' _)⟩, fun _ => rfl⟩
      | some d =>
        have e1 := (level_iff x lv).mp hx
        have e2 := (description_iff y d).mp hy
        refine ⟨fun a => ⟨fun e => ?_, fun ⟨r, h1, h2, _⟩ => ?_⟩, fun hno => absurd ⟨⟨lv, d⟩, l, e1, e2, rfl⟩ hno⟩
        · simp only [Res.ok.injEq, Message.AlertMessage.injEq] at e
          subst e
          exact ⟨l, e1, e2, rfl⟩
        · have h3 := (level_iff x a.level).mpr h1
          have h4 := (description_iff y a.description).mpr h2
          rw [hx] at h3
          rw [hy] at h4
          cases h3
          cases h4
          rfl

/-- C20, what was meant, holds for payloads of at most two bytes. -/
theorem C20_alert_two_bytes (m : Mode) (s s1 : TlsReader) (rec : Record) (hb : s.handshakeBuffer = {}) (h : (readRecord m).run s = (.ok rec, s1))
    (hty : rec.contentType = .AlertTy) (hl : rec.fragment.length ≤ 2) (a : Alert) :
    ((readMessage m).run s).1 = .ok (.AlertMessage a) ↔ rec.fragment = [levelNumber a.level, alertNumber a.description] := by
  rw [(C20_alert_partial m s s1 rec hb h hty).1 a]
  constructor
  · rintro ⟨rest, hr⟩
    rw [hr] at hl ⊢
    cases rest with
    | nil => rfl
    | cons => simp at hl
  · rintro hr
    exact ⟨[], hr⟩

/-- C20 is false for longer payloads: an alert followed by any bytes is accepted as that alert. -/
theorem C20_long_alert_accepted (m : Mode) (a : Alert) (rest : Bytes) (hl : rest.length ≤ 2 ^ 14 - 2) :
    ((readMessage m).run (TlsReader.new ⟨[.data (recordBytes 21 3 3 (levelNumber a.level :: alertNumber a.description :: rest))]⟩)).1 = .ok (.AlertMessage a) := by
  have hlen : (levelNumber a.level :: alertNumber a.description :: rest).length ≤ 16384 := by simp; omega
  generalize hf : levelNumber a.level :: alertNumber a.description :: rest = f at hlen ⊢
  have hs : (TlsReader.new ⟨[.data (recordBytes 21 3 3 f)]⟩).reader.stream = ofBytes (recordBytes (ContentType.toU8 .AlertTy) 3 3 f) ++ [] := by
    show Reader.stream ⟨[.data (recordBytes 21 3 3 f)]⟩ = _
    rw [Reader.stream_data _ (by simp [recordBytes])]; rfl
  have hE : ENC_RECORD_MAX_LEN = 18432 := rfl
  have hR : RECORD_MAX_LEN = 16384 := rfl
  obtain ⟨r', _, h2⟩ := readRecord_front (m := m) (by omega) hs
  rw [finish_run] at h2
  have hu : TlsReader.unprotect { TlsReader.new ⟨[.data (recordBytes 21 3 3 f)]⟩ with reader := r' } .AlertTy 3 3 f = .ok ⟨.AlertTy, 3, 3, f⟩ := by
    unfold TlsReader.unprotect
    simp only [TlsReader.new]
    rw [if_neg (by omega), Record.new_ok _ _ _ _ (by omega)]
  rw [hu] at h2
  simp only at h2
  rw [TlsReader.bump_ok m { TlsReader.new ⟨[.data (recordBytes 21 3 3 f)]⟩ with reader := r' } (by show (0 : UInt64).toNat + 1 < 2 ^ 64; decide)] at h2
  exact ((C20_alert_partial m _ _ ⟨.AlertTy, 3, 3, f⟩ rfl h2 rfl).1 a).mpr ⟨rest, hf.symm⟩

end Husk
