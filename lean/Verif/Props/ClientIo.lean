import Verif.Proofs.Incoming
/-! C17 (at the client) and C21-C25: reading and writing application data through `TlsClient`. -/

namespace Husk

open Spec TlsReader

/-! ### C21: write is all-or-error -/

theorem writeRecord_io {m : Mode} {record : Record} {w w' : TlsWriter} {x : Res Unit} (hs : w.SealsShort) (hf : record.fragment.length ≤ RECORD_MAX_LEN)
    (hn : w.writeCount.toNat + 1 < 2 ^ 64) (h : (TlsWriter.writeRecord m record).run w = (x, w')) : x = .ok () ∨ x = .err .IoFailure := by
  obtain ⟨ct, h1, h2⟩ := hs.seal record hf
  rw [TlsWriter.writeRecord_run, h1] at h
  simp only at h
  rw [if_neg (by omega)] at h
  obtain ⟨l1, l2, l3, l4⟩ := TlsWriter.logged_same w record ct
  rcases TlsWriter.emit_cases m record ct (w.logged record ct) h2 with ⟨w1, g1, _, _⟩ | ⟨w1, n, g1, _, _⟩
  · rw [g1, TlsWriter.bump_ok _ _ (by simpa [l3] using hn)] at h
    simp only [Prod.mk.injEq] at h
    exact Or.inl h.1.symm
  · rw [g1] at h
    simp only [Prod.mk.injEq] at h
    exact Or.inr h.1.symm

theorem writeChunks_io {m : Mode} {ty : ContentType} {cs : List Bytes} (hcs : ∀ c ∈ cs, c.length ≤ RECORD_MAX_LEN) {w w' : TlsWriter} {x : Res Unit}
    (hs : w.SealsShort) (hn : w.writeCount.toNat + cs.length < 2 ^ 64) (h : (TlsWriter.writeChunks m ty cs).run w = (x, w')) :
    x = .ok () ∨ (x = .err .IoFailure ∧ ∃ sent w1 ct p, w.Sent sent w1 ∧ sent.length < cs.length ∧
      sent.map (·.1) = TlsWriter.recordsOf ty (cs.take sent.length) ∧ w'.writer.wire = w1.writer.wire ++ (recordBytes ty.toU8 3 3 ct).take p) := by
  induction cs generalizing w with
  | nil =>
    simp only [TlsWriter.writeChunks, St.pure_run, Prod.mk.injEq] at h
    exact Or.inl h.1.symm
  | cons c cs ih =>
    have hr : Record.new ty TLS_VERSION.1 TLS_VERSION.2 c = .ok ⟨ty, TLS_VERSION.1, TLS_VERSION.2, c⟩ :=
      Record.new_ok _ _ _ _ (hcs c (by simp))
    rw [TlsWriter.writeChunks, St.bind_of_ok (a := ⟨ty, TLS_VERSION.1, TLS_VERSION.2, c⟩) (s' := w) (by rw [hr]; rfl), St.bind_run] at h
    rcases hw : (TlsWriter.writeRecord m ⟨ty, TLS_VERSION.1, TLS_VERSION.2, c⟩).run w with ⟨y, w1⟩
    rw [hw] at h
    simp only [List.length_cons] at hn
    rcases writeRecord_io hs (hcs c (by simp)) (by omega) hw with rfl | rfl
    · simp only at h
      obtain ⟨ct, hwr⟩ := TlsWriter.writeRecord_inv hw
      have h1 : (1 : UInt64).toNat = 1 := rfl
      rcases ih (fun c hc => hcs c (List.mem_cons_of_mem _ hc)) (by intro e he; exact hs e (by rw [← hwr.encryptor]; exact he))
        (by rw [hwr.count, UInt64.toNat_add, h1]; omega) h with h2 | ⟨h2, sent, w2, ct2, p, h3, h4, h5, h6⟩
      · exact Or.inl h2
      · refine Or.inr ⟨h2, _ :: sent, w2, ct2, p, .cons hwr h3, by simpa using h4, ?_, h6⟩
        rw [List.map_cons, h5]; rfl
    · simp only [Prod.mk.injEq] at h
      obtain ⟨rfl, rfl⟩ := h
      obtain ⟨_, _, _, _, ct, p, h5⟩ := TlsWriter.writeRecord_fail hw (by simp)
      exact Or.inr ⟨rfl, [], w, ct, p, .nil, by simp, rfl, h5⟩

/-- The writer encrypts with the cipher of the crate. -/
def CrateWriter (w : TlsWriter) : Prop := ∃ m key, key.length = 32 ∧ w.encryptor = some (Encryptor.chacha m key)

theorem CrateWriter.sealsShort {w : TlsWriter} (h : CrateWriter w) : w.SealsShort := by
  intro e hee n p ad hnl hp
  obtain ⟨m', key, hk, he⟩ := h
  rw [hee] at he
  cases he
  have hE : ENC_RECORD_MAX_LEN = 18432 := rfl
  have hR : RECORD_MAX_LEN = 16384 := rfl
  obtain ⟨c, h1, h2, _⟩ := C37_roundtrip m' m' key n p ad hk hnl (by omega)
  exact ⟨c, h1, by omega⟩

theorem writeApplicationData_run (m : Mode) (buf : Bytes) (w : TlsWriter) (h : w.encryptor.isSome) :
    (TlsWriter.writeApplicationData m buf).run w = (TlsWriter.writeData m .ApplicationDataTy buf).run w := by
  rw [TlsWriter.writeApplicationData, St.bind_run, St.get_run]
  simp only
  rw [if_neg (by cases hx : w.encryptor <;> simp_all)]

/-- The records of `buf` on the wire: the fragments `fs`, each not empty and at most 2^14 bytes, make up `buf`; `cs` are what the encryptor made of them. -/
def Carried (w w' : TlsWriter) (buf : Bytes) : Prop :=
  ∃ fs cs : List Bytes, fs.flatten = buf ∧ (∀ f ∈ fs, f ≠ [] ∧ f.length ≤ 2 ^ 14) ∧ cs.length = fs.length ∧
    w'.writer.wire = w.writer.wire ++ cs.flatMap (recordBytes 23 3 3) ∧
    ∃ new, w'.calls = w.calls ++ new ∧ new.map (·.plain) = fs ∧ new.map (·.out) = cs

theorem writeAll_run (m : Mode) (buf : Bytes) (c : TlsClient) : (TlsClient.writeAll m buf).run c =
    match (TlsWriter.writeApplicationData m buf).run c.writer with
    | (.ok (), w) => (.ok (), { c with writer := w })
    | (.err k, w) => (TlsClient.sendTlsAlert m k >>= fun k' => St.err k').run { c with writer := w }
    | (.panic, w) => (.panic, { c with writer := w })
    | (.diverge, w) => (.diverge, { c with writer := w }) := by
  simp only [TlsClient.writeAll, TlsClient.onWriter, St.zoom_run]
  rcases (TlsWriter.writeApplicationData m buf).run c.writer with ⟨x, w⟩
  cases x <;> rfl

theorem sendTlsAlert_not_ok (m : Mode) (k : TlsErrorKind) (c c' : TlsClient) (u : α) :
    (TlsClient.sendTlsAlert m k >>= fun k' => (St.err k' : St TlsClient α)).run c ≠ (.ok u, c') := by
  intro h
  obtain ⟨_, _, _, h2⟩ := St.bind_eq_ok h
  simp [St.err_run] at h2

/-- C21: when `write` returns `Ok(n)`, `n` is the length of the buffer, and the records carrying all of the buffer have been handed to the transport,
whatever encryptor is installed. -/
theorem C21_ok_means_all (m : Mode) (buf : Bytes) (c c' : TlsClient) (n : Nat) (h : (TlsClient.write m buf).run c = (.ok n, c')) :
    n = buf.length ∧ Carried c.writer c'.writer buf ∧ c'.reader = c.reader ∧ c'.rng = c.rng ∧ c'.buf = c.buf := by
  obtain ⟨_, c1, h1, h2⟩ := St.bind_eq_ok h
  simp only [St.pure_run, Prod.mk.injEq, Res.ok.injEq] at h2
  obtain ⟨rfl, rfl⟩ := h2
  rw [writeAll_run] at h1
  rcases hw : (TlsWriter.writeApplicationData m buf).run c.writer with ⟨x, w⟩
  rw [hw] at h1
  cases x with
  | ok u =>
    simp only [Prod.mk.injEq, true_and] at h1
    subst h1
    refine ⟨rfl, ?_, rfl, rfl, rfl⟩
    have he : c.writer.encryptor.isSome := by
      cases hx : c.writer.encryptor with
      | none => simp [TlsWriter.writeApplicationData, St.bind_run, St.get_run, hx, St.panic_run] at hw
      | some e => rfl
    rw [writeApplicationData_run _ _ _ he] at hw
    obtain ⟨fs, cs, g1, g2, _, g4, g5, g6⟩ := C14_fragmentation m .ApplicationDataTy buf c.writer w hw
    obtain ⟨e, hx⟩ := Option.isSome_iff_exists.mp he
    rw [hx] at g6
    exact ⟨fs, cs, g1, g2, g4, g5, g6⟩
  | err k => exact absurd h1 (sendTlsAlert_not_ok m k _ _ _)
  | panic => simp at h1
  | diverge => simp at h1

/-- C21: with the cipher of the crate, `write` either returns `Ok` or an I/O error; it never panics (as long as the 64-bit record counter
has room). After an error only records with an initial part of the buffer, and a part of one more record, reached the transport, and
no alert follows them. -/
theorem C21_all_or_error (m : Mode) (buf : Bytes) (c c' : TlsClient) (x : Res Nat) (hc : CrateWriter c.writer)
    (hn : c.writer.writeCount.toNat + (buf.length + 16383) / 16384 < 2 ^ 64) (h : (TlsClient.write m buf).run c = (x, c')) :
    x = .ok buf.length ∨ (x = .err .IoFailure ∧ ∃ (fs cs : List Bytes) (rest ct : Bytes) (p : Nat), fs.flatten ++ rest = buf ∧ rest ≠ [] ∧ cs.length = fs.length ∧
      c'.writer.writer.wire = c.writer.writer.wire ++ cs.flatMap (recordBytes 23 3 3) ++ (recordBytes 23 3 3 ct).take p) := by
  have he : c.writer.encryptor.isSome := by obtain ⟨_, _, _, h⟩ := hc; rw [h]; rfl
  have hcount : (chunks RECORD_MAX_LEN buf).length = (buf.length + 16383) / 16384 := chunks_count (by decide) buf
  rw [TlsClient.write, St.bind_run, writeAll_run, writeApplicationData_run _ _ _ he] at h
  rcases hw : (TlsWriter.writeData m .ApplicationDataTy buf).run c.writer with ⟨y, w⟩
  rw [hw] at h
  rcases writeChunks_io (TlsWriter.chunk_bound buf) hc.sealsShort (by rw [hcount]; exact hn) hw with rfl | ⟨rfl, sent, w1, ct, p, h1, h2, h3, h4⟩
  · simp only [St.pure_run, Prod.mk.injEq] at h
    exact Or.inl h.1.symm
  · right
    have hio : (TlsClient.sendTlsAlert m .IoFailure >>= fun k' => (St.err k' : St TlsClient Unit)).run { c with writer := w } =
      (.err .IoFailure, { c with writer := w }) := rfl
    simp only [hio, Prod.mk.injEq] at h
    obtain ⟨rfl, rfl⟩ := h
    refine ⟨rfl, (chunks RECORD_MAX_LEN buf).take sent.length, sent.map (·.2), ((chunks RECORD_MAX_LEN buf).drop sent.length).flatten, ct, p, ?_, ?_, ?_, ?_⟩
    · rw [← List.flatten_append, List.take_append_drop, chunks_flatten (by decide)]
    · rw [List.drop_eq_getElem_cons h2, List.flatten_cons]
      have := chunks_ne_nil (by decide) buf _ (List.getElem_mem h2)
      intro e
      exact this (List.append_eq_nil_iff.mp e).1
    · rw [List.length_map, List.length_take]; omega
    · show w.writer.wire = _
      rw [h4, h1.wire]
      have : sent.flatMap (fun rc => recordBytes rc.1.contentType.toU8 rc.1.verMajor rc.1.verMinor rc.2) = (sent.map (·.2)).flatMap (recordBytes 23 3 3) := by
        rw [List.flatMap_map, List.flatMap_def, List.flatMap_def]
        congr 1
        apply List.map_congr_left
        intro rc hrc
        have : rc.1 ∈ TlsWriter.recordsOf .ApplicationDataTy ((chunks RECORD_MAX_LEN buf).take sent.length) := by
          rw [← h3]; exact List.mem_map.mpr ⟨rc, hrc, rfl⟩
        obtain ⟨f, _, hf⟩ := List.mem_map.mp this
        rw [← hf]
        rfl
      rw [this]
      rfl

/-- C21: with a transport that takes everything, `write` succeeds. -/
theorem C21_succeeds (m : Mode) (buf : Bytes) (c : TlsClient) (hc : CrateWriter c.writer) (hf : c.writer.writer.faults = [])
    (hn : c.writer.writeCount.toNat + (buf.length + 16383) / 16384 < 2 ^ 64) : ∃ c', (TlsClient.write m buf).run c = (.ok buf.length, c') := by
  have he : c.writer.encryptor.isSome := by obtain ⟨_, _, _, h⟩ := hc; rw [h]; rfl
  obtain ⟨w, hw⟩ := C14_succeeds m .ApplicationDataTy buf c.writer (Or.inr (by obtain ⟨a, b, h1, h2⟩ := hc; exact ⟨a, b, h1, h2⟩)) hf hn
  refine ⟨{ c with writer := w }, ?_⟩
  rw [TlsClient.write, St.bind_run, writeAll_run, writeApplicationData_run _ _ _ he, hw]
  rfl

/-- A transport that fails in the third write of the second record: 16384 bytes went out, then an error. -/
example (key : Bytes) (hk : key.length = 32) : CrateWriter { writer := { faults := List.replicate 7 none ++ [some 0] }, encryptor := some (Encryptor.chacha .debug key) } :=
  ⟨.debug, key, hk, rfl⟩

/-! ### C22: read delivers the stream exactly -/

/-- C22: one `read` call, in terms of the calls of `read_application_data` it makes (results `rs`): it returns `Ok` unless one of them panics; what it
returns, followed by what stays in the buffer, is the buffer followed by what those calls delivered; it returns at most `len` bytes, and fewer only if the
last of the calls returned an error (then nothing stays behind); and it does not call when it has enough. -/
theorem C22_read (m : Mode) (len : Nat) (c c' : TlsClient) (x : Res Bytes) (h : (TlsClient.read m len).run c = (x, c')) :
    ∃ n, let rs := (readApp m n c.reader).1
      c'.reader = (readApp m n c.reader).2 ∧ c'.writer = c.writer ∧ c'.rng = c.rng ∧
      (∀ j < n, (c.buf ++ (rs.take j).flatMap delivered).length < len) ∧
      ((∃ out, x = .ok out ∧ out.length ≤ len ∧ c.buf ++ rs.flatMap delivered = out ++ c'.buf ∧
          (out.length < len → c'.buf = [] ∧ ∃ k, rs.getLast? = some (.err k))) ∨
       (x = .panic ∧ rs.getLast? = some .panic) ∨ (x = .diverge ∧ rs.getLast? = some .diverge)) := by
  obtain ⟨n, x', c1, h1, h2, h3, h4⟩ := TlsClient.read_spec m len c
  rw [h] at h1
  simp only [Prod.mk.injEq] at h1
  obtain ⟨rfl, rfl⟩ := h1
  refine ⟨n, by rw [h2], by rw [h2], by rw [h2], fun j hj => h4 j (by rw [readApp_length]; exact hj), ?_⟩
  cases x with
  | ok out =>
    left
    obtain ⟨h5, h6⟩ := h3
    rcases h6 with ⟨h6, _⟩ | ⟨h6, h7, rs0, k, h8, _⟩
    · exact ⟨out, rfl, by omega, h5, by intro h; omega⟩
    · exact ⟨out, rfl, by omega, h5, fun _ => ⟨h7, k, by rw [h8]; simp⟩⟩
  | err k => exact absurd h3 id
  | panic => obtain ⟨rs0, h5, _⟩ := h3; exact Or.inr (Or.inl ⟨rfl, by rw [h5]; simp⟩)
  | diverge => obtain ⟨rs0, h5, _⟩ := h3; exact Or.inr (Or.inr ⟨rfl, by rw [h5]; simp⟩)

/-- A history of `read` calls with buffers of the given lengths; it ends with a panic. -/
def readMany (m : Mode) : List Nat → TlsClient → List (Res Bytes) × TlsClient
  | [], c => ([], c)
  | len :: lens, c =>
    match (TlsClient.read m len).run c with
    | (.ok b, c') => let (rs, c'') := readMany m lens c'; (.ok b :: rs, c'')
    | (.err k, c') => let (rs, c'') := readMany m lens c'; (.err k :: rs, c'')
    | (.panic, c') => ([.panic], c')
    | (.diverge, c') => ([.diverge], c')

/-- C22 over a history: any number of `read` calls with any buffer lengths hand out, in order and without loss or duplication, what successive
`read_application_data` calls deliver: what was handed out followed by what is still buffered is the initial buffer followed by all that was
delivered. (If the last call panics, the bytes it had collected are lost with it; then what was handed out is a prefix.) -/
theorem C22_history (m : Mode) (lens : List Nat) (c : TlsClient) : ∃ n,
    (readMany m lens c).2.reader = (readApp m n c.reader).2 ∧
    (readMany m lens c).1.flatMap delivered <+: c.buf ++ (readApp m n c.reader).1.flatMap delivered ∧
    ((∀ r ∈ (readMany m lens c).1, r.Returns) →
      (∃ outs, (readMany m lens c).1 = outs.map .ok ∧ List.Forall₂ (fun (o : Bytes) len => o.length ≤ len) outs lens) ∧
      c.buf ++ (readApp m n c.reader).1.flatMap delivered = (readMany m lens c).1.flatMap delivered ++ (readMany m lens c).2.buf) := by
  induction lens generalizing c with
  | nil => exact ⟨0, rfl, by simp [readMany], fun _ => ⟨⟨[], rfl, .nil⟩, by simp [readMany, readApp]⟩⟩
  | cons len lens ih =>
    rcases hr : (TlsClient.read m len).run c with ⟨x, c1⟩
    obtain ⟨n, h1, _, _, _, h4⟩ := C22_read m len c c1 x hr
    rcases h4 with ⟨out, rfl, h5, h6, _⟩ | ⟨rfl, _⟩ | ⟨rfl, _⟩
    · obtain ⟨k, g1, g2, g3⟩ := ih c1
      have e1 : readMany m (len :: lens) c = (.ok out :: (readMany m lens c1).1, (readMany m lens c1).2) := by simp [readMany, hr]
      have e2 : c.buf ++ (readApp m (n + k) c.reader).1.flatMap delivered = out ++ (c1.buf ++ (readApp m k c1.reader).1.flatMap delivered) := by
        rw [readApp_add, h1]
        simp only [List.flatMap_append]
        rw [← List.append_assoc, h6, List.append_assoc]
      refine ⟨n + k, ?_, ?_, ?_⟩
      · rw [e1, g1, readApp_add, h1]
      · rw [e1, e2, List.flatMap_cons]
        exact (List.prefix_append_right_inj _).mpr g2
      · intro hret
        rw [e1] at hret
        obtain ⟨⟨outs, g4, g5⟩, g6⟩ := g3 fun r hr => hret r (List.mem_cons_of_mem _ hr)
        refine ⟨⟨out :: outs, by rw [e1, g4]; rfl, .cons h5 g5⟩, ?_⟩
        rw [e1, e2, g6, List.flatMap_cons, List.append_assoc]
        rfl
    · have e1 : readMany m (len :: lens) c = ([.panic], c1) := by simp [readMany, hr]
      refine ⟨n, by rw [e1, h1], by rw [e1]; simp [delivered], ?_⟩
      rw [e1]
      intro h
      exact absurd (h .panic (by simp)) id
    · have e1 : readMany m (len :: lens) c = ([.diverge], c1) := by simp [readMany, hr]
      refine ⟨n, by rw [e1, h1], by rw [e1]; simp [delivered], ?_⟩
      rw [e1]
      intro h
      exact absurd (h .diverge (by simp)) id

theorem Pending.readMany (m : Mode) (lens : List Nat) {w w' : TlsWriter} {sent : List (Record × Bytes)} {ds : List Bytes} {l : List Sym} {c : TlsClient}
    (h : Pending w sent ds w' l c.reader) (hl : lens.sum ≤ (c.buf ++ ds.flatten).length) :
    ∃ (outs : List Bytes) (c' : TlsClient) (w1 : TlsWriter) (sent1 : List (Record × Bytes)) (ds1 : List Bytes), Husk.readMany m lens c = (outs.map .ok, c') ∧ outs.map List.length = lens ∧ outs.flatten = (c.buf ++ ds.flatten).take lens.sum ∧
      Pending w1 sent1 ds1 w' l c'.reader ∧ c'.buf ++ ds1.flatten = (c.buf ++ ds.flatten).drop lens.sum := by
  induction lens generalizing w sent ds c with
  | nil => exact ⟨[], c, w, sent, ds, rfl, rfl, by simp, h, by simp⟩
  | cons len lens ih =>
    simp only [List.sum_cons] at hl
    obtain ⟨c1, w1, sent1, ds1, h1, h2, h3, _, _⟩ := h.read m len (by omega)
    obtain ⟨outs, c2, w2, sent2, ds2, g1, g2, g3, g4, g5⟩ := ih h2 (by rw [h3, List.length_drop]; omega)
    refine ⟨(c.buf ++ ds.flatten).take len :: outs, c2, w2, sent2, ds2, ?_, ?_, ?_, g4, ?_⟩
    · simp only [Husk.readMany, h1, g1]; rfl
    · rw [List.map_cons, g2, List.length_take, Nat.min_eq_left (by omega)]
    · rw [List.flatten_cons, g3, h3, List.sum_cons, List.take_add]
    · rw [g5, h3, List.drop_drop, List.sum_cons]

/-- The client is connected to the peer: same keys and numbers, and nothing buffered. -/
structure Connected (w : TlsWriter) (c : TlsClient) : Prop where
  synced : Synced w c.reader
  decrypts : c.reader.decryptor.isSome
  noMessage : NoMessage c.reader.handshakeBuffer
  empty : c.buf = []

/-- C22, end to end: a connected peer writes `data` in one go; whatever the lengths of the buffers of the `read` calls (in total at most the length of
`data`), and however the transport cuts the bytes, the calls fill their buffers completely, with `data` in order. -/
theorem C22_stream (m m' : Mode) (data : Bytes) (w : TlsWriter) (c : TlsClient) (hc : Connected w c) (hf : w.writer.faults = [])
    (hn : w.writeCount.toNat + (data.length + 16383) / 16384 < 2 ^ 64) :
    ∃ w' emitted, (TlsWriter.writeData m' .ApplicationDataTy data).run w = (.ok (), w') ∧ w'.writer.wire = w.writer.wire ++ emitted ∧
      ∀ (rd : Reader) (l : List Sym), rd.stream = ofBytes emitted ++ l → ∀ lens : List Nat, lens.sum ≤ data.length →
        ∃ (outs : List Bytes) (c' : TlsClient), readMany m lens { c with reader := { c.reader with reader := rd } } = (outs.map .ok, c') ∧
          outs.map List.length = lens ∧ outs.flatten = data.take lens.sum := by
  have hcount : (chunks RECORD_MAX_LEN data).length = (data.length + 16383) / 16384 := chunks_count (by decide) data
  obtain ⟨w', hw⟩ := TlsWriter.writeChunks_ok (m := m') (ty := .ApplicationDataTy) (TlsWriter.chunk_bound data) hc.synced.sealsShort hf (by rw [hcount]; exact hn)
  obtain ⟨sent, hsent, hmap⟩ := TlsWriter.writeData_inv hw
  have hlen : sent.length = (data.length + 16383) / 16384 := by
    rw [← hcount, ← List.length_map (f := Prod.fst), hmap]; simp [TlsWriter.recordsOf]
  refine ⟨w', wireOf sent, hw, hsent.wire, fun rd l hrd lens hlens => ?_⟩
  have hp : Pending w sent (chunks RECORD_MAX_LEN data) w' l { c.reader with reader := rd } :=
    ⟨hsent, hc.synced, hc.decrypts, hc.noMessage, by
      intro rc hrc
      have : rc.1 ∈ TlsWriter.recordsOf .ApplicationDataTy (chunks RECORD_MAX_LEN data) := by rw [← hmap]; exact List.mem_map.mpr ⟨rc, hrc, rfl⟩
      obtain ⟨f, hf, he⟩ := List.mem_map.mp this
      rw [← he]
      exact TlsWriter.chunk_bound data f hf, by rw [hlen]; exact hn, hands_of_records rfl hmap, hrd⟩
  have hb := hc.empty
  have hfl : (chunks RECORD_MAX_LEN data).flatten = data := chunks_flatten (by decide) data
  obtain ⟨outs, c', _, _, _, h1, h2, h3, _⟩ := Pending.readMany (c := { c with reader := { c.reader with reader := rd } }) m lens hp
    (by simp only [hb, hfl]; simpa using hlens)
  refine ⟨outs, c', h1, h2, ?_⟩
  rw [h3, hb, hfl]
  rfl

/-- The hypotheses of `C22_stream` are met by the cipher of the crate with any key and IV. -/
example (m m' : Mode) (key iv : Bytes) (k : UInt64) (hk : key.length = 32) :
    Connected { writer := {}, encryptor := some (Encryptor.chacha m key), writeCount := k, iv := some iv }
      { reader := { reader := ⟨[]⟩, decryptor := some (Decryptor.chacha m' key), readCount := k, iv := some iv }, writer := TlsWriter.new {}, rng := ⟨[]⟩ } :=
  ⟨⟨rfl, rfl, Or.inr ⟨_, _, rfl, rfl, matching_chacha m m' key hk⟩⟩, rfl, rfl, rfl⟩

/-- C22, a run: two records of 2 and 3 bytes read with buffers of 1, 3 and 4 bytes (no encryption, to keep it readable). -/
example : (readMany .debug [1, 3, 4] { reader := { reader := ⟨[.data [23, 3, 3, 0, 2, 6, 7, 23, 3, 3], .data [0, 3, 8, 9, 10]]⟩, decryptor := some ⟨fun _ c _ => .ok c, 0⟩ }, writer := TlsWriter.new {}, rng := ⟨[]⟩ }).1
    = [.ok [6], .ok [7, 8, 9], .ok [10]] := by
  decide +kernel

/-! ### C17 at the client -/

/-- C17 for users of `TlsClient`: the peer writes with a fresh `TlsWriter` in any history without failures; the client holds a decryptor that opens only
what the peer's encryptor sealed. Whatever the attacker makes of the stream, what any `read` calls with any buffer lengths hand out, taken
together, is a prefix of the application data the peer wrote, also when reads in between fail. -/
theorem C17_client_prefix (m m' : Mode) (wr : Writer) (ops : List WriteOp) (hiv : IvBeforeData m ops (TlsWriter.new wr))
    (hok : ∀ r ∈ (runWrites m ops (TlsWriter.new wr)).1, r = .ok ()) (hb : (runWrites m ops (TlsWriter.new wr)).2.calls.length < 2 ^ 64)
    (d : Decryptor) (hid : Ideal d (runWrites m ops (TlsWriter.new wr)).2.calls) (attack : Reader) (buf : HandshakeBuffer) (w : TlsWriter) (rng : Rng) (lens : List Nat) :
    (readMany m' lens { reader := { reader := attack, decryptor := some d, readCount := 0, handshakeBuffer := buf, iv := (runWrites m ops (TlsWriter.new wr)).2.iv }, writer := w, rng := rng }).1.flatMap delivered
      <+: appWritten ops := by
  obtain ⟨n, _, h2, _⟩ := C22_history m' lens { reader := { reader := attack, decryptor := some d, readCount := 0, handshakeBuffer := buf, iv := (runWrites m ops (TlsWriter.new wr)).2.iv }, writer := w, rng := rng }
  exact h2.trans (C17_delivered_is_prefix m m' wr ops hiv hok hb d hid attack buf n)

/-! ### Reading past what the peer sent -/

theorem readRecord_end (m : Mode) (s : TlsReader) (h : s.reader.stream = []) :
    ∃ r', (readRecord m).run s = (.err .IoFailure, { s with reader := r' }) ∧ r'.stream = [] := by
  obtain ⟨r', h1, h2⟩ := Reader.readExact_spec 1 s.reader
  rw [h] at h1 h2
  refine ⟨r', ?_, h2⟩
  have h3 : Reader.readU8.run s.reader = (.err .IoFailure, r') := by
    rw [Reader.readU8, St.bind_of_err (k := .IoFailure) (s' := r') (by rw [h1]; rfl)]
  rw [readRecord, St.bind_of_err (io_err h3)]

theorem messageLoop_err {m : Mode} {s s1 : TlsReader} {k : TlsErrorKind} (fuel : Nat) (h : (readRecord m).run s = (.err k, s1)) :
    (messageLoop m (fuel + 1)).run s = (.err k, s1) := by
  rw [messageLoop, St.bind_of_err (k := k) (s' := s1)]
  rw [messageStep, St.bind_of_err h]

theorem readApplicationData_err {m : Mode} {s s1 : TlsReader} {k : TlsErrorKind} (hd : s.decryptor.isSome) (hg : NoMessage s.handshakeBuffer)
    (h : (readRecord m).run s = (.err k, s1)) : (readApplicationData m).run s = (.err k, s1) := by
  have h1 : (onBuffer HandshakeBuffer.getMessage).run s = (.ok none, s) := by
    simp only [onBuffer, St.zoom_run]
    rw [hg]
  have : (readMessage m).run s = (.err k, s1) := by
    rw [readMessage, St.bind_of_ok h1]
    exact messageLoop_err _ h
  rw [readApplicationData_message hd this]
  rfl

/-- The client after it has taken all that was pending. -/
theorem Pending.readBeyond (m : Mode) {w w' : TlsWriter} {sent : List (Record × Bytes)} {ds : List Bytes} {l : List Sym} {c : TlsClient}
    (h : Pending w sent ds w' l c.reader) (len : Nat) (hlen : (c.buf ++ ds.flatten).length < len) :
    ∃ s1, Pending w' [] [] w' l s1 ∧ s1.handshakeBuffer = c.reader.handshakeBuffer ∧ s1.decryptor = c.reader.decryptor ∧
      (∀ k s2, (readApplicationData m).run s1 = (.err k, s2) →
        (TlsClient.read m len).run c = (.ok (c.buf ++ ds.flatten), { c with reader := s2, buf := [] })) ∧
      (∀ s2, (readApplicationData m).run s1 = (.panic, s2) → ((TlsClient.read m len).run c).1 = .panic) := by
  obtain ⟨n, x, c', h1, h2, h3, h4⟩ := TlsClient.read_spec m len c
  obtain ⟨e1, w1, e2⟩ := h.readApp m sent.length (Nat.le_refl _)
  have hl : sent.length = ds.length := forall₂_length h.hands
  rw [List.drop_length, hl, List.drop_length] at e2
  rw [hl, List.take_length, ← hl] at e1
  have hw1 : w1 = w' := by cases e2.ok; rfl
  subst hw1
  rw [← hl] at e2
  have hkeep : ∀ k (s : TlsReader) w sent ds, Pending w sent ds w1 l s → k ≤ sent.length → (Husk.readApp m k s).2.handshakeBuffer = s.handshakeBuffer ∧ (Husk.readApp m k s).2.decryptor = s.decryptor := by
    intro k
    induction k with
    | zero => intros; exact ⟨rfl, rfl⟩
    | succ k ih =>
      intro s w sent ds hp hk
      cases sent with
      | nil => simp at hk
      | cons rc sent =>
        have hh := hp.hands
        cases ds with
        | nil => cases hh
        | cons d ds =>
          obtain ⟨w2, s2, g1, g2⟩ := hp.step m
          obtain ⟨i1, i2⟩ := ih s2 w2 sent ds g2 (by simpa using hk)
          obtain ⟨r1, r2⟩ : s2.handshakeBuffer = s.handshakeBuffer ∧ s2.decryptor = s.decryptor := by
            have hinc : Incoming w (rc :: sent) w1 l s := ⟨hp.ok, hp.synced, hp.short, hp.count, hp.stream⟩
            obtain ⟨_, r', q1, _⟩ := hinc.record m
            cases hh with
            | cons q2 _ =>
              rw [readApplicationData_record hp.decrypts hp.noMessage q1 q2.1] at g1
              simp only [Prod.mk.injEq] at g1
              rw [← g1.2]
              exact ⟨rfl, rfl⟩
          simp only [Husk.readApp, g1, i1, i2, r1, r2, and_self]
  obtain ⟨k1, k2⟩ := hkeep sent.length c.reader w sent ds h (Nat.le_refl _)
  refine ⟨(Husk.readApp m sent.length c.reader).2, e2, k1, k2, ?_, ?_⟩
  all_goals
    have hn : sent.length < n := by
      rcases Nat.lt_or_ge sent.length n with hlt | hge
      · exact hlt
      · exfalso
        obtain ⟨f1, _⟩ := h.readApp m n hge
        rw [f1] at h3
        cases x with
        | ok out =>
          obtain ⟨h5, h6⟩ := h3
          rw [flatMap_delivered_ok] at h5
          have hle : (ds.take n).flatten.length ≤ ds.flatten.length := by
            conv => rhs; rw [← List.take_append_drop n ds, List.flatten_append, List.length_append]
            omega
          have := congrArg List.length h5
          simp only [List.length_append] at this hlen
          rcases h6 with ⟨h6, _⟩ | ⟨_, _, rs0, k, h7, _⟩
          · omega
          · have : (Res.err k : Res Bytes) ∈ (ds.take n).map Res.ok := by rw [h7]; simp
            obtain ⟨b, hb⟩ := AllOk_map _ _ this
            cases hb
        | err k => exact h3
        | panic =>
          obtain ⟨rs0, h7, _⟩ := h3
          have : (Res.panic : Res Bytes) ∈ (ds.take n).map Res.ok := by rw [h7]; simp
          obtain ⟨b, hb⟩ := AllOk_map _ _ this
          cases hb
        | diverge =>
          obtain ⟨rs0, h7, _⟩ := h3
          have : (Res.diverge : Res Bytes) ∈ (ds.take n).map Res.ok := by rw [h7]; simp
          obtain ⟨b, hb⟩ := AllOk_map _ _ this
          cases hb
    obtain ⟨k0, rfl⟩ := Nat.exists_eq_add_of_le hn
    have hsplit : (Husk.readApp m (sent.length + 1 + k0) c.reader).1 = ds.map .ok ++ ((readApplicationData m).run (Husk.readApp m sent.length c.reader).2).1 ::
        (Husk.readApp m k0 ((readApplicationData m).run (Husk.readApp m sent.length c.reader).2).2).1 := by
      rw [Nat.add_assoc, readApp_add, e1, Nat.add_comm 1 k0]
      rfl
    have hend : (Husk.readApp m (sent.length + 1 + k0) c.reader).2 =
        (Husk.readApp m k0 ((readApplicationData m).run (Husk.readApp m sent.length c.reader).2).2).2 := by
      rw [Nat.add_assoc, readApp_add, Nat.add_comm 1 k0]
      rfl
  · intro k s2 hs2
    rw [hs2] at hsplit hend
    simp only at hsplit hend
    -- the error is the last call
    have hlast : ∀ rs0 r, ds.map Res.ok ++ Res.err k :: (Husk.readApp m k0 s2).1 = rs0 ++ [r] → AllOk rs0 → k0 = 0 := by
      intro rs0 r he hok
      rcases List.eq_nil_or_concat (Husk.readApp m k0 s2).1 with hnil | ⟨pre, z, hz⟩
      · have := readApp_length m k0 s2
        rw [hnil] at this
        simpa using this.symm
      · exfalso
        rw [List.concat_eq_append] at hz
        rw [hz, ← List.cons_append, ← List.append_assoc] at he
        have := (List.append_inj' he rfl).1
        have hm : (Res.err k : Res Bytes) ∈ rs0 := by rw [← this]; simp
        obtain ⟨b, hb⟩ := hok _ hm
        cases hb
    rw [hsplit] at h3
    cases x with
    | ok out =>
      obtain ⟨h5, h6⟩ := h3
      rcases h6 with ⟨h6, h7⟩ | ⟨h6, h7, rs0, k', h8, h9⟩
      · have hm : (Res.err k : Res Bytes) ∈ ds.map Res.ok ++ Res.err k :: (Husk.readApp m k0 s2).1 := by simp
        obtain ⟨b, hb⟩ := h7 _ hm
        cases hb
      · have := hlast rs0 _ h8 h9
        subst this
        simp only [Husk.readApp, List.flatMap_append, List.flatMap_cons, List.flatMap_nil, flatMap_delivered_ok] at h5
        rw [h1, h2, hend, h7]
        rw [h7] at h5
        simp only [delivered, List.append_nil] at h5
        rw [h5]
        rfl
    | err k => exact absurd h3 id
    | panic =>
      obtain ⟨rs0, h8, h9⟩ := h3
      have := hlast rs0 _ h8 h9
      subst this
      have := (List.append_inj' h8 rfl).2
      simp at this
    | diverge =>
      obtain ⟨rs0, h8, h9⟩ := h3
      have := hlast rs0 _ h8 h9
      subst this
      have := (List.append_inj' h8 rfl).2
      simp at this
  · intro s2 hs2
    rw [hs2] at hsplit
    simp only at hsplit
    rw [h1]
    have hm : (Res.panic : Res Bytes) ∈ ds.map Res.ok ++ Res.panic :: (Husk.readApp m k0 s2).1 := by simp
    have hlast : ∀ rs0 r, ds.map Res.ok ++ Res.panic :: (Husk.readApp m k0 s2).1 = rs0 ++ [r] → AllOk rs0 → r = .panic := by
      intro rs0 r he hok
      rw [he] at hm
      rcases List.mem_append.mp hm with hm | hm
      · obtain ⟨b, hb⟩ := hok _ hm
        cases hb
      · simpa using (List.mem_singleton.mp hm).symm
    rw [hsplit] at h3
    cases x with
    | ok out =>
      obtain ⟨h5, h6⟩ := h3
      rcases h6 with ⟨h6, h7⟩ | ⟨h6, h7, rs0, k', h8, h9⟩
      · obtain ⟨b, hb⟩ := h7 _ hm
        cases hb
      · cases hlast rs0 _ h8 h9
    | err k => exact absurd h3 id
    | panic => rfl
    | diverge =>
      obtain ⟨rs0, h8, h9⟩ := h3
      cases hlast rs0 _ h8 h9

/-! ### C23: data after close_notify -/

theorem alert_bytes (a : Alert) : TlsItem.write a = .ok [levelNumber a.level, alertNumber a.description] := by
  obtain ⟨l, d⟩ := a
  cases l <;> cases d <;> rfl

theorem alert_fragment (a : Alert) : alertMessage [levelNumber a.level, alertNumber a.description] = .ok (.AlertMessage a) := by
  rw [alertMessage_cons, (level_iff _ a.level).mpr rfl, (description_iff _ a.description).mpr rfl]

theorem writeAlert_run (m : Mode) (a : Alert) (w : TlsWriter) :
    (TlsWriter.writeAlert m a).run w = (TlsWriter.writeData m .AlertTy [levelNumber a.level, alertNumber a.description]).run w := by
  rw [TlsWriter.writeAlert, St.bind_run, alert_bytes]
  rfl

theorem chunks_small {b : Bytes} (h0 : b ≠ []) (h : b.length ≤ RECORD_MAX_LEN) : chunks RECORD_MAX_LEN b = [b] := by
  cases b with
  | nil => exact absurd rfl h0
  | cons x xs =>
    have h1 : (x :: xs).drop RECORD_MAX_LEN = [] := List.drop_eq_nil_of_le h
    have h2 : (x :: xs).take RECORD_MAX_LEN = x :: xs := List.take_of_length_le h
    rw [chunks, List.length_cons, chunksAux, h1, h2]
    cases xs.length <;> rfl

theorem connected_encrypts {w : TlsWriter} {c : TlsClient} (h : Connected w c) : w.encryptor.isSome := by
  obtain ⟨_, _, ⟨_, h2⟩ | ⟨e, d, h1, _, _⟩⟩ := h.synced
  · have := h.decrypts
    rw [h2] at this
    simp at this
  · rw [h1]; rfl

/-- The peer sends `d1`, then an alert, then `d2`. -/
def sendAround (m : Mode) (d1 : Bytes) (a : Alert) (d2 : Bytes) : St TlsWriter Unit := do
  TlsWriter.writeApplicationData m d1
  TlsWriter.writeAlert m a
  TlsWriter.writeApplicationData m d2

theorem pending_around (m : Mode) (d1 d2 : Bytes) (level : AlertLevel) (w : TlsWriter) (c : TlsClient) (hc : Connected w c) (hf : w.writer.faults = [])
    (hn : w.writeCount.toNat + (d1.length + 16383) / 16384 + 1 + (d2.length + 16383) / 16384 < 2 ^ 64) :
    ∃ w' sent ds, (sendAround m d1 ⟨level, .close_notify⟩ d2).run w = (.ok (), w') ∧ w'.writer.wire = w.writer.wire ++ wireOf sent ∧ ds.flatten = d1 ++ d2 ∧
      ∀ (rd : Reader) (l : List Sym), rd.stream = ofBytes (wireOf sent) ++ l → Pending w sent ds w' l { c.reader with reader := rd } := by
  have he := connected_encrypts hc
  obtain ⟨w1, s1, a1, b1, c1, x1, y1, z1, n1, k1⟩ := peer_writes m .ApplicationDataTy d1 w hc.synced.sealsShort hf (by omega)
  obtain ⟨w2, s2, a2, b2, c2, x2, y2, z2, n2, k2⟩ := peer_writes m .AlertTy [levelNumber level, alertNumber .close_notify] w1 x1 y1 (by simp only [List.length_cons, List.length_nil]; omega)
  simp only [List.length_cons, List.length_nil] at n2 k2
  obtain ⟨w3, s3, a3, b3, c3, x3, y3, z3, n3, k3⟩ := peer_writes m .ApplicationDataTy d2 w2 x2 y2 (by omega)
  have e1 : (chunks RECORD_MAX_LEN [levelNumber level, alertNumber .close_notify]) = [[levelNumber level, alertNumber .close_notify]] :=
    chunks_small (by simp) (by simp only [List.length_cons, List.length_nil]; decide)
  refine ⟨w3, s1 ++ (s2 ++ s3), chunks RECORD_MAX_LEN d1 ++ ([] :: chunks RECORD_MAX_LEN d2), ?_, ?_, ?_, ?_⟩
  · rw [sendAround, St.bind_of_ok (by rw [writeApplicationData_run _ _ _ he]; exact a1), St.bind_of_ok (by rw [writeAlert_run]; exact a2),
      writeApplicationData_run _ _ _ (by rw [z2, z1]; exact he)]
    exact a3
  · have := (b1.trans (b2.trans b3)).wire
    exact this
  · rw [List.flatten_append, List.flatten_cons, chunks_flatten (by decide), chunks_flatten (by decide)]; rfl
  · intro rd l hrd
    refine ⟨b1.trans (b2.trans b3), hc.synced, hc.decrypts, hc.noMessage, ?_, ?_, ?_, hrd⟩
    · intro rc hrc
      rcases List.mem_append.mp hrc with h | h
      · exact (records_short c1 rc h).2.1
      · rcases List.mem_append.mp h with h | h
        · exact (records_short c2 rc h).2.1
        · exact (records_short c3 rc h).2.1
    · rw [List.length_append, List.length_append, k1, k2, k3]; omega
    · have app : ∀ {a a' : List (Record × Bytes)} {b b' : List Bytes}, List.Forall₂ (fun rc b => Hands rc.1 b) a b → List.Forall₂ (fun rc b => Hands rc.1 b) a' b' →
          List.Forall₂ (fun rc b => Hands rc.1 b) (a ++ a') (b ++ b') := by
        intro a a' b b' h1 h2
        induction h1 with
        | nil => exact h2
        | cons q _ ih => exact .cons q ih
      refine app (hands_of_records rfl c1) ?_
      have : List.Forall₂ (fun (rc : Record × Bytes) b => Hands rc.1 b) s2 [[]] := by
        rw [e1] at c2
        match s2, c2 with
        | [rc], c2 =>
          simp only [TlsWriter.recordsOf, List.map_cons, List.map_nil, List.cons.injEq, and_true] at c2
          refine .cons ?_ .nil
          rw [c2]
          refine ⟨by simp, ?_⟩
          simp only [recordMessage]
          rw [alert_fragment ⟨level, .close_notify⟩]
          rfl
      exact app this (hands_of_records rfl c3)

/-- C23 is false: whatever a connected peer sends after close_notify is delivered by the same `read` call, as if close_notify had not been there. -/
theorem C23_delivered_after_close (m m' : Mode) (d1 d2 : Bytes) (level : AlertLevel) (w : TlsWriter) (c : TlsClient) (hc : Connected w c) (hf : w.writer.faults = [])
    (hn : w.writeCount.toNat + (d1.length + 16383) / 16384 + 1 + (d2.length + 16383) / 16384 < 2 ^ 64) :
    ∃ w' emitted, (sendAround m' d1 ⟨level, .close_notify⟩ d2).run w = (.ok (), w') ∧ w'.writer.wire = w.writer.wire ++ emitted ∧
      ∀ (rd : Reader) (l : List Sym), rd.stream = ofBytes emitted ++ l →
        ((TlsClient.read m (d1.length + d2.length)).run { c with reader := { c.reader with reader := rd } }).1 = .ok (d1 ++ d2) := by
  obtain ⟨w', sent, ds, h1, h2, h3, h4⟩ := pending_around m' d1 d2 level w c hc hf hn
  refine ⟨w', wireOf sent, h1, h2, fun rd l hrd => ?_⟩
  have hb := hc.empty
  obtain ⟨c', _, _, _, g1, _⟩ := Pending.read (c := { c with reader := { c.reader with reader := rd } }) m (h4 rd l hrd) (d1.length + d2.length)
    (by simp only [hb, h3]; simp)
  rw [g1]
  simp only [hb, h3, List.nil_append]
  rw [List.take_of_length_le (by simp)]

/-- C23, the part that holds: if the transport ends after close_notify (the peer also closes the connection), a `read` that asks for more than there is returns
exactly the data before close_notify, and every later `read` returns end-of-stream. Missing: data after close_notify should be dropped
(`C23_delivered_after_close`). -/
theorem C23_end_after_close_partial (m m' : Mode) (d : Bytes) (level : AlertLevel) (w : TlsWriter) (c : TlsClient) (hc : Connected w c) (hf : w.writer.faults = [])
    (hn : w.writeCount.toNat + (d.length + 16383) / 16384 + 1 < 2 ^ 64) :
    ∃ w' emitted, (sendAround m' d ⟨level, .close_notify⟩ []).run w = (.ok (), w') ∧ w'.writer.wire = w.writer.wire ++ emitted ∧
      ∀ (rd : Reader), rd.stream = ofBytes emitted → ∀ len, d.length < len → ∀ lens : List Nat,
        (readMany m (len :: lens) { c with reader := { c.reader with reader := rd } }).1 = .ok d :: lens.map fun _ => .ok [] := by
  obtain ⟨w', sent, ds, h1, h2, h3, h4⟩ := pending_around m' d [] level w c hc hf (by simpa using hn)
  refine ⟨w', wireOf sent, h1, h2, fun rd hrd len hlen lens => ?_⟩
  have hb := hc.empty
  have hp := h4 rd [] (by simpa using hrd)
  have quiet : ∀ (lens : List Nat) (c : TlsClient), c.buf = [] → Pending w' [] [] w' [] c.reader → (readMany m lens c).1 = lens.map fun _ => .ok [] := by
    intro lens
    induction lens with
    | nil => intros; rfl
    | cons len lens ih =>
      intro c hb hp
      by_cases h0 : len = 0
      · obtain ⟨c1, w1, s1, ds1, g1, g2, g3, _, _⟩ := hp.read m len (by omega)
        subst h0
        have e1 : s1 = [] := by
          have := g2.stream
          obtain ⟨n, x, c2, q1, q2, _, q4⟩ := TlsClient.read_spec m 0 c
          rw [g1] at q1
          simp only [Prod.mk.injEq] at q1
          obtain ⟨_, rfl⟩ := q1
          have hn : n = 0 := by
            cases n with
            | zero => rfl
            | succ n => have := q4 0 (by rw [readApp_length]; omega); omega
          subst hn
          rw [q2] at this
          have hs := hp.stream
          simp only [readApp] at this
          rw [hs] at this
          cases s1 with
          | nil => rfl
          | cons rc s1 =>
            have := congrArg List.length this
            simp [wireOf, ofBytes, recordBytes] at this
        subst e1
        have e2 : ds1 = [] := by cases g2.hands; rfl
        subst e2
        have e3 : w1 = w' := by cases g2.ok; rfl
        subst e3
        have hb1 : c1.buf = [] := by simpa [hb] using g3
        simp only [readMany, g1, ih c1 hb1 g2]
        simp [hb]
      · obtain ⟨s1, p1, p2, p3, p4, _⟩ := hp.readBeyond m len (by simp [hb]; omega)
        obtain ⟨r', q1, q2⟩ := readRecord_end m s1 (by simpa [wireOf, ofBytes] using p1.stream)
        have := p4 _ _ (readApplicationData_err p1.decrypts p1.noMessage q1)
        simp only [readMany, this]
        rw [ih _ rfl ⟨p1.ok, p1.synced, p1.decrypts, p1.noMessage, p1.short, p1.count, p1.hands, by simpa [wireOf, ofBytes] using q2⟩]
        simp [hb]
  obtain ⟨s1, p1, p2, p3, p4, _⟩ := Pending.readBeyond (c := { c with reader := { c.reader with reader := rd } }) m hp len (by simp only [hb, h3]; simpa using hlen)
  obtain ⟨r', q1, q2⟩ := readRecord_end m s1 (by simpa [wireOf, ofBytes] using p1.stream)
  have := p4 _ _ (readApplicationData_err p1.decrypts p1.noMessage q1)
  simp only [readMany, this]
  rw [quiet _ _ rfl ⟨p1.ok, p1.synced, p1.decrypts, p1.noMessage, p1.short, p1.count, p1.hands, by simpa [wireOf, ofBytes] using q2⟩]
  simp [hb, h3]

/-! ### C24: a peer can crash the connection -/

theorem read_panics (m : Mode) (len : Nat) (hlen : 0 < len) (c : TlsClient) (hb : c.buf = []) {s2 : TlsReader} (h : (readApplicationData m).run c.reader = (.panic, s2)) :
    ((TlsClient.read m len).run c).1 = .panic := by
  obtain ⟨n, x, c', h1, h2, h3, h4⟩ := TlsClient.read_spec m len c
  rw [h1]
  cases n with
  | zero =>
    simp only [readApp] at h3
    cases x with
    | ok out =>
      obtain ⟨h5, h6⟩ := h3
      simp only [hb, List.flatMap_nil, List.append_nil] at h5
      have := congrArg List.length h5
      simp only [List.length_nil, List.length_append] at this
      rcases h6 with ⟨h6, _⟩ | ⟨_, _, rs0, k, h7, _⟩
      · omega
      · simp at h7
    | err k => exact absurd h3 id
    | panic => rfl
    | diverge => obtain ⟨rs0, h7, _⟩ := h3; simp at h7
  | succ n =>
    simp only [readApp, h] at h3
    have hlast : ∀ rs0 r, Res.panic :: (readApp m n s2).1 = rs0 ++ [r] → AllOk rs0 → r = .panic := by
      intro rs0 r he hok
      have hm : (Res.panic : Res Bytes) ∈ rs0 ++ [r] := by rw [← he]; simp
      rcases List.mem_append.mp hm with hm | hm
      · obtain ⟨b, hb⟩ := hok _ hm
        cases hb
      · simpa using (List.mem_singleton.mp hm).symm
    cases x with
    | ok out =>
      obtain ⟨h5, h6⟩ := h3
      rcases h6 with ⟨h6, h7⟩ | ⟨h6, h7, rs0, k', h8, h9⟩
      · obtain ⟨b, hb⟩ := h7 .panic (by simp)
        cases hb
      · cases hlast rs0 _ h8 h9
    | err k => exact absurd h3 id
    | panic => rfl
    | diverge =>
      obtain ⟨rs0, h8, h9⟩ := h3
      cases hlast rs0 _ h8 h9

theorem single_record {ty : ContentType} {data : Bytes} {sent : List (Record × Bytes)} (h : sent.map (·.1) = TlsWriter.recordsOf ty [data]) :
    ∃ rc, sent = [rc] ∧ rc.1 = ⟨ty, TLS_VERSION.1, TLS_VERSION.2, data⟩ := by
  cases sent with
  | nil => simp [TlsWriter.recordsOf] at h
  | cons rc rest =>
    simp only [TlsWriter.recordsOf, List.map_cons, List.map_nil, List.cons.injEq, List.map_eq_nil_iff] at h
    exact ⟨rc, by rw [h.2], h.1⟩

/-- A connected peer writes one short record that `read_application_data` cannot handle. -/
theorem crash_record (m m' : Mode) (ty : ContentType) (data : Bytes) (w : TlsWriter) (c : TlsClient) (hc : Connected w c) (hf : w.writer.faults = [])
    (hn : w.writeCount.toNat + 1 < 2 ^ 64) (hd : data ≠ []) (hl : data.length ≤ RECORD_MAX_LEN) (hty : ty ≠ .HandshakeTy)
    (hpanic : (recordMessage ⟨ty, 3, 3, data⟩ >>= applicationData) = .panic) :
    ∃ w' emitted, (TlsWriter.writeData m' ty data).run w = (.ok (), w') ∧ w'.writer.wire = w.writer.wire ++ emitted ∧
      ∀ (rd : Reader) (l : List Sym), rd.stream = ofBytes emitted ++ l → ∀ len, 0 < len →
        ((TlsClient.read m len).run { c with reader := { c.reader with reader := rd } }).1 = .panic := by
  have hR : RECORD_MAX_LEN = 16384 := rfl
  have hpos : 0 < data.length := List.length_pos_iff.mpr hd
  have h1 : (data.length + 16383) / 16384 = 1 := by omega
  obtain ⟨w1, s1, a1, b1, c1, x1, y1, z1, n1, k1⟩ := peer_writes m' ty data w hc.synced.sealsShort hf (by omega)
  refine ⟨w1, wireOf s1, a1, b1.wire, fun rd l hrd len hlen => ?_⟩
  have hinc : Incoming w s1 w1 l { c.reader with reader := rd } := ⟨b1, hc.synced, fun rc h => (records_short c1 rc h).2.1, by omega, hrd⟩
  rw [chunks_small hd hl] at c1
  obtain ⟨rc, rfl, hrc⟩ := single_record c1
  · obtain ⟨w2, r', g1, g2⟩ := hinc.record m
    rw [hrc] at g1
    have hgo := readApplicationData_record (s := { c.reader with reader := rd }) hc.decrypts hc.noMessage g1 hty
    have e : (recordMessage ⟨ty, TLS_VERSION.1, TLS_VERSION.2, data⟩ >>= applicationData) = .panic := hpanic
    rw [e] at hgo
    exact read_panics m len hlen { c with reader := { c.reader with reader := rd } } hc.empty hgo

/-- C24 is false for alerts: every alert other than close_notify that a connected peer sends makes the client's next `read` panic. -/
theorem C24_alert_panics (m m' : Mode) (a : Alert) (ha : a.description ≠ .close_notify) (w : TlsWriter) (c : TlsClient) (hc : Connected w c) (hf : w.writer.faults = [])
    (hn : w.writeCount.toNat + 1 < 2 ^ 64) :
    ∃ w' emitted, (TlsWriter.writeAlert m' a).run w = (.ok (), w') ∧ w'.writer.wire = w.writer.wire ++ emitted ∧
      ∀ (rd : Reader) (l : List Sym), rd.stream = ofBytes emitted ++ l → ∀ len, 0 < len →
        ((TlsClient.read m len).run { c with reader := { c.reader with reader := rd } }).1 = .panic := by
  rw [writeAlert_run]
  refine crash_record m m' .AlertTy _ w c hc hf hn (by simp) (by simp only [List.length_cons, List.length_nil]; decide) (by simp) ?_
  simp only [recordMessage]
  rw [alert_fragment a]
  simp [applicationData, ha]

/-- C24 is false for ChangeCipherSpec. -/
theorem C24_change_cipher_spec_panics (m m' : Mode) (w : TlsWriter) (c : TlsClient) (hc : Connected w c) (hf : w.writer.faults = [])
    (hn : w.writeCount.toNat + 1 < 2 ^ 64) :
    ∃ w' emitted, (TlsWriter.writeChangeCipherSpec m').run w = (.ok (), w') ∧ w'.writer.wire = w.writer.wire ++ emitted ∧
      ∀ (rd : Reader) (l : List Sym), rd.stream = ofBytes emitted ++ l → ∀ len, 0 < len →
        ((TlsClient.read m len).run { c with reader := { c.reader with reader := rd } }).1 = .panic :=
  crash_record m m' .ChangeCipherSpecTy [1] w c hc hf hn (by simp) (by decide) (by simp) rfl

/-- C24 is false for handshake messages: every well-formed one (a HelloRequest asking for renegotiation, for instance) makes the client's next `read` panic. -/
theorem C24_handshake_panics (m m' : Mode) (h : Handshake) (b : Bytes) (hs : Sendable h) (hw : TlsItem.write h = .ok b) (w : TlsWriter) (c : TlsClient) (hc : Connected w c) (hf : w.writer.faults = [])
    (hb : c.reader.handshakeBuffer = {}) (hn : w.writeCount.toNat + 2 ^ 11 < 2 ^ 64) :
    ∃ w' emitted, (TlsWriter.writeHandshake m' h).run w = (.ok (), w') ∧ w'.writer.wire = w.writer.wire ++ emitted ∧
      ∀ (rd : Reader) (l : List Sym), rd.stream = ofBytes emitted ++ l → ∀ len, 0 < len →
        ((TlsClient.read m len).run { c with reader := { c.reader with reader := rd } }).1 = .panic := by
  have hlen : b.length = TlsItem.size h := C02_size_handshake h b hs.1 hw
  have hsz := hs.2.2
  obtain ⟨w1, s1, a1, b1, c1, x1, y1, z1, n1, k1⟩ := peer_writes m' .HandshakeTy b w hc.synced.sealsShort hf (by omega)
  refine ⟨w1, wireOf s1, ?_, b1.wire, fun rd l hrd len hl => ?_⟩
  · rw [TlsWriter.writeHandshake, St.bind_run, hw]; exact a1
  have hinc : Incoming w s1 w1 l { c.reader with reader := rd } := ⟨b1, hc.synced, fun rc h => (records_short c1 rc h).2.1, by omega, hrd⟩
  obtain ⟨w2, s2, r2, g1, _⟩ := hinc.readMessage m (fun rc hr => ⟨(records_short c1 rc hr).1, (records_short c1 rc hr).2.2⟩) (h := h) (hs := [])
    (by
      show Encodes [h] (c.reader.handshakeBuffer.buf ++ payload s1)
      rw [hb, records_payload c1]
      have := Encodes.cons hs hw Encodes.nil
      simpa using this)
  have hgo := readApplicationData_message (s := { c.reader with reader := rd }) hc.decrypts g1
  exact read_panics m len hl { c with reader := { c.reader with reader := rd } } hc.empty hgo

/-- A HelloRequest is such a message. -/
example : Sendable (.hello_request {}) ∧ TlsItem.write (Handshake.hello_request {}) = .ok [0, 0, 0, 0] :=
  ⟨⟨trivial, by intro e he; simp [extensionsOf] at he, by decide⟩, by decide⟩

/-- A message that `read_application_data` can handle. -/
def Benign : Message → Prop
  | .ApplicationDataMessage _ => True
  | .AlertMessage a => a.description = .close_notify
  | _ => False

theorem HasOverlong.of_suffix {s s' : TlsReader} (h : HasOverlong s') (hd : s'.decryptor = s.decryptor) (hs : ∃ p, s.reader.stream = p ++ s'.reader.stream) : HasOverlong s := by
  obtain ⟨d, p, f, l, h1, h2, h3⟩ := h
  obtain ⟨q, hq⟩ := hs
  exact ⟨d, q ++ p, f, l, by rw [← hd, h1], by rw [hq, h2]; simp, h3⟩

theorem Took.count {s s' : TlsReader} {recs} (h : Took s recs s') (k : Nat) (hn : s.readCount.toNat + countBytes s.reader.stream + k < 2 ^ 64) :
    s'.readCount.toNat + countBytes s'.reader.stream + k < 2 ^ 64 := by
  induction h with
  | nil h1 _ h3 _ => rw [h1, h3]; exact hn
  | cons h1 h2 _ _ h5 _ _ ih =>
    apply ih
    rw [h2, countBytes_append, countBytes_ofBytes, recordBytes_length] at hn
    have h1 : (1 : UInt64).toNat = 1 := rfl
    rw [h5, UInt64.toNat_add, h1]
    omega

/-- C24, the part that holds: with the cipher of the crate, `read` does not panic as long as the messages that arrive are application data or
close_notify alerts (and nobody who knows the key sends a record with more than 2^14 bytes of plaintext, see C19, and the record counter has
room). Damaged records, garbage and transport failures do not make it panic. Missing: all other messages. -/
theorem C24_no_panic_partial (m : Mode) (len : Nat) (c : TlsClient) (hd : c.reader.decryptor.isSome) (hc : CrateReader c.reader)
    (hn : c.reader.readCount.toNat + countBytes c.reader.reader.stream + 1 < 2 ^ 64) (ho : ¬ HasOverlong c.reader)
    (hb : ∀ n msg s', (readMessage m).run (readApp m n c.reader).2 = (.ok msg, s') → Benign msg) :
    ((TlsClient.read m len).run c).1.Returns := by
  rcases hr : (TlsClient.read m len).run c with ⟨x, c'⟩
  obtain ⟨n, x', c1, h1, h2, h3, h4⟩ := TlsClient.read_spec m len c
  rw [hr] at h1
  simp only [Prod.mk.injEq] at h1
  obtain ⟨rfl, rfl⟩ := h1
  -- every call made so far returned a value
  have step : ∀ (s : TlsReader), s.decryptor.isSome → CrateReader s → s.readCount.toNat + countBytes s.reader.stream + 1 < 2 ^ 64 → ¬ HasOverlong s →
      (∀ msg s', (readMessage m).run s = (.ok msg, s') → Benign msg) → ((readApplicationData m).run s).1.Returns := by
    intro s hd hc hn ho hb
    have := readMessage_returns m s hc hn ho
    rcases hm : (readMessage m).run s with ⟨y, s1⟩
    rw [readApplicationData_message hd hm]
    rw [hm] at this
    cases y with
    | ok msg =>
      have hbm := hb msg s1 hm
      cases msg with
      | ApplicationDataMessage b => trivial
      | AlertMessage a =>
        have : a.description = .close_notify := hbm
        simp [applicationData, this, Res.Returns]
      | ChangeCipherSpecMessage => exact absurd hbm id
      | HandshakeMessage h => exact absurd hbm id
    | err k => trivial
    | panic => exact absurd this id
    | diverge => exact absurd this id
  have inv : ∀ n, AllOk (readApp m n c.reader).1 → (readApp m n c.reader).2.decryptor.isSome ∧ CrateReader (readApp m n c.reader).2 ∧
      (readApp m n c.reader).2.readCount.toNat + countBytes (readApp m n c.reader).2.reader.stream + 1 < 2 ^ 64 ∧ ¬ HasOverlong (readApp m n c.reader).2 := by
    intro n
    induction n with
    | zero => intro _; exact ⟨hd, hc, hn, ho⟩
    | succ n ih =>
      intro hok
      rw [readApp_add] at hok ⊢
      obtain ⟨i1, i2, i3, i4⟩ := ih fun r hr => hok r (List.mem_append_left _ hr)
      have hq : (readApp m 1 (readApp m n c.reader).2) = ([((readApplicationData m).run (readApp m n c.reader).2).1], ((readApplicationData m).run (readApp m n c.reader).2).2) := rfl
      rw [hq] at hok ⊢
      obtain ⟨b, hb'⟩ := hok ((readApplicationData m).run (readApp m n c.reader).2).1 (by simp)
      rcases hs : (readMessage m).run (readApp m n c.reader).2 with ⟨y, s1⟩
      rw [readApplicationData_message i1 hs] at hb' ⊢
      cases y with
      | ok msg =>
        obtain ⟨recs, ht, _⟩ := readMessage_inv hs
        have hdd := Took.decryptor ht
        refine ⟨by rw [hdd]; exact i1, ?_, Took.count ht 1 i3, fun h => i4 (h.of_suffix hdd (Took.suffix ht))⟩
        rcases i2 with i2 | ⟨a, k, i2, i2'⟩
        · exact Or.inl (by rw [hdd]; exact i2)
        · exact Or.inr ⟨a, k, i2, by rw [hdd]; exact i2'⟩
      | err k => simp at hb'
      | panic => simp at hb'
      | diverge => simp at hb'
  have last : ∀ r rs0, (readApp m n c.reader).1 = rs0 ++ [r] → AllOk rs0 → r.Returns := by
    intro r rs0 he hok
    have hl := readApp_length m n c.reader
    rw [he, List.length_append, List.length_singleton] at hl
    subst hl
    rw [readApp_add] at he
    obtain ⟨e1, e2⟩ := List.append_inj he (by rw [readApp_length])
    rw [← e1] at hok
    obtain ⟨i1, i2, i3, i4⟩ := inv _ hok
    have hq : (readApp m 1 (readApp m rs0.length c.reader).2).1 = [((readApplicationData m).run (readApp m rs0.length c.reader).2).1] := rfl
    rw [hq] at e2
    simp only [List.cons.injEq, and_true] at e2
    rw [← e2]
    exact step _ i1 i2 i3 i4 (hb rs0.length)
  cases x with
  | ok out => trivial
  | err k => trivial
  | panic => obtain ⟨rs0, h5, h6⟩ := h3; exact absurd (last _ _ h5 h6) id
  | diverge => obtain ⟨rs0, h5, h6⟩ := h3; exact absurd (last _ _ h5 h6) id

/-! ### C25: failures are not reported -/

/-- C25 is false: `read` never returns an error. -/
theorem C25_never_err (m : Mode) (len : Nat) (c c' : TlsClient) (k : TlsErrorKind) : (TlsClient.read m len).run c ≠ (.err k, c') := by
  intro h
  obtain ⟨_, _, _, _, _, h4⟩ := C22_read m len c c' _ h
  rcases h4 with ⟨_, h, _⟩ | ⟨h, _⟩ | ⟨h, _⟩ <;> cases h

theorem read_error (m : Mode) (len : Nat) (hlen : 0 < len) (c : TlsClient) (hb : c.buf = []) {s2 : TlsReader} {k : TlsErrorKind}
    (h : (readApplicationData m).run c.reader = (.err k, s2)) : (TlsClient.read m len).run c = (.ok [], { c with reader := s2 }) := by
  have e : (TlsClient.read m len).run c = (TlsClient.readLoop m (len + c.reader.reader.bytes + 1) len []).run c := rfl
  rw [e, TlsClient.readLoop_succ _ _ _ _ (by omega)]
  have hr : (TlsClient.refill m).run c = (.ok false, { c with reader := s2 }) := by
    simp only [TlsClient.refill, hb, TlsClient.onReader, St.zoom_run, h]
    rfl
  rw [hr]

/-- C25 is false: a record that fails authentication (an attacker can put one on the wire at any time) makes `read` return `Ok(0)`, which is also what it
returns when the transport has ended; and the next `read` goes on with the record after it. -/
theorem C25_bad_record_is_end_of_stream (m : Mode) (len : Nat) (hlen : 0 < len) (c : TlsClient) (d : Decryptor) (ty : ContentType) (a b : UInt8) (f : Bytes) (l : List Sym)
    (hb : c.buf = []) (hd : c.reader.decryptor = some d) (hg : NoMessage c.reader.handshakeBuffer) (hf : f.length ≤ ENC_RECORD_MAX_LEN)
    (hbad : f.length < d.macLen ∨ d.decrypt c.reader.nonce f (c.reader.ad ty a b (f.length - d.macLen)) = .err .BadRecordMac)
    (hs : c.reader.reader.stream = ofBytes (recordBytes ty.toU8 a b f) ++ l) :
    ∃ r', (TlsClient.read m len).run c = (.ok [], { c with reader := { c.reader with reader := r' } }) ∧ r'.stream = l := by
  obtain ⟨r', h1, h2⟩ := readRecord_front (m := m) hf hs
  have hu : TlsReader.unprotect { c.reader with reader := r' } ty a b f = .err .BadRecordMac := by
    unfold TlsReader.unprotect
    simp only [hd]
    split
    · rfl
    rename_i hge
    have hbad := hbad.resolve_left hge
    have e : d.decrypt (TlsReader.nonce { c.reader with reader := r' }) f (TlsReader.ad { c.reader with reader := r' } ty a b (f.length - d.macLen)) = .err .BadRecordMac := hbad
    simp only [hd] at e
    rw [e]
    rfl
  rw [finish_run, hu] at h2
  exact ⟨r', read_error m len hlen c hb (readApplicationData_err (by rw [hd]; rfl) hg h2), h1⟩

/-- Such a record: no bytes at all, not even a tag. -/
example (m : Mode) (key iv : Bytes) (w : TlsWriter) (rng : Rng) : ∃ c', (TlsClient.read m 10).run
    { reader := { reader := ⟨[.data [23, 3, 3, 0, 0]]⟩, decryptor := some (Decryptor.chacha m key), iv := some iv }, writer := w, rng := rng } = (.ok [], c') := by
  obtain ⟨r', h, _⟩ := C25_bad_record_is_end_of_stream m 10 (by decide) { reader := { reader := ⟨[.data [23, 3, 3, 0, 0]]⟩, decryptor := some (Decryptor.chacha m key), iv := some iv }, writer := w, rng := rng }
    (Decryptor.chacha m key) .ApplicationDataTy 3 3 [] [] rfl rfl rfl (by decide) (Or.inl (show 0 < 16 by decide)) (Reader.stream_data [23, 3, 3, 0, 0] (by simp) [])
  exact ⟨_, h⟩

/-- The same result at the end of the transport. -/
theorem C25_end_of_stream (m : Mode) (len : Nat) (hlen : 0 < len) (c : TlsClient) (hb : c.buf = []) (hd : c.reader.decryptor.isSome)
    (hg : NoMessage c.reader.handshakeBuffer) (hs : c.reader.reader.stream = []) :
    ∃ r', (TlsClient.read m len).run c = (.ok [], { c with reader := { c.reader with reader := r' } }) ∧ r'.stream = [] := by
  obtain ⟨r', h1, h2⟩ := readRecord_end m c.reader hs
  exact ⟨r', read_error m len hlen c hb (readApplicationData_err hd hg h1), h2⟩

/-- C25, the part that holds: a failure ends the `read` call and shows as a short count, and a short count means a failure. Missing: the
kind of failure (end of stream or attack) cannot be told (`C25_bad_record_is_end_of_stream`, `C25_end_of_stream`). -/
theorem C25_failure_is_short_partial (m : Mode) (len : Nat) (c c' : TlsClient) (out : Bytes) (h : (TlsClient.read m len).run c = (.ok out, c')) :
    ∃ n, c'.reader = (readApp m n c.reader).2 ∧ (out.length < len ↔ ∃ r ∈ (readApp m n c.reader).1, ∀ b, r ≠ .ok b) := by
  obtain ⟨n, x, c1, h1, h2, h3, h4⟩ := TlsClient.read_spec m len c
  rw [h] at h1
  simp only [Prod.mk.injEq] at h1
  obtain ⟨rfl, rfl⟩ := h1
  refine ⟨n, by rw [h2], ?_⟩
  obtain ⟨_, h6⟩ := h3
  constructor
  · intro hlt
    rcases h6 with ⟨h6, _⟩ | ⟨_, _, rs0, k, h8, _⟩
    · omega
    · exact ⟨.err k, by rw [h8]; simp, by simp⟩
  · rintro ⟨r, hr, hne⟩
    rcases h6 with ⟨_, h7⟩ | ⟨h6, _⟩
    · obtain ⟨b, hb⟩ := h7 r hr
      exact absurd hb (hne b)
    · exact h6

end Husk
