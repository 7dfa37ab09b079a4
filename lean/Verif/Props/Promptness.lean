import Verif.Props.SessionData
/-! C74: does `read` return as soon as there is something to return, or does it go back to the transport first? -/

namespace Husk

open Item Spec TlsReader TlsClient

/-! ### Specification -/

/-- `read` returns what has arrived without asking the transport for more: a connected peer has sent some data; a `read` with a buffer that is not empty, called when all of the
peer's records have arrived (whatever follows them: `l`), returns some of the data and leaves `l` untouched. On a transport where the next read would block, `read` then
does not block. -/
def ReadIsPrompt (m : Mode) : Prop := ∀ (m' : Mode) (data : Bytes) (w w' : TlsWriter) (c : TlsClient) (emitted : Bytes), Connected w c → data ≠ [] → w.writer.faults = [] →
  w.writeCount.toNat + (data.length + 16383) / 16384 < 2 ^ 64 → (TlsWriter.writeData m' .ApplicationDataTy data).run w = (.ok (), w') → w'.writer.wire = w.writer.wire ++ emitted →
  ∀ (rd : Reader) (l : List Sym), rd.stream = ofBytes emitted ++ l → ∀ len, 0 < len →
    ∃ out c' p, (TlsClient.read m len).run { c with reader := { c.reader with reader := rd } } = (.ok out, c') ∧ out ≠ [] ∧ c'.reader.reader.stream = p ++ l

/-! ### Proofs -/

/-- What a connected peer wrote is pending at the client once it has arrived. -/
theorem Connected.pending (m' : Mode) (data : Bytes) {w : TlsWriter} {c : TlsClient} (hc : Connected w c) (hf : w.writer.faults = [])
    (hn : w.writeCount.toNat + (data.length + 16383) / 16384 < 2 ^ 64) :
    ∃ w' emitted sent, (TlsWriter.writeData m' .ApplicationDataTy data).run w = (.ok (), w') ∧ w'.writer.wire = w.writer.wire ++ emitted ∧
      ∀ (rd : Reader) (l : List Sym), rd.stream = ofBytes emitted ++ l → Pending w sent (chunks RECORD_MAX_LEN data) w' l { c.reader with reader := rd } := by
  have hcount : (chunks RECORD_MAX_LEN data).length = (data.length + 16383) / 16384 := chunks_count (by decide) data
  obtain ⟨w', hw⟩ := TlsWriter.writeChunks_ok (m := m') (ty := .ApplicationDataTy) (TlsWriter.chunk_bound data) hc.synced.sealsShort hf (by rw [hcount]; exact hn)
  obtain ⟨sent, hsent, hmap⟩ := TlsWriter.writeData_inv hw
  have hlen : sent.length = (data.length + 16383) / 16384 := by
    rw [← hcount, ← List.length_map (f := Prod.fst), hmap]; simp [TlsWriter.recordsOf]
  refine ⟨w', wireOf sent, sent, hw, hsent.wire, fun rd l hrd => ?_⟩
  exact ⟨hsent, hc.synced, hc.decrypts, hc.noMessage, by
      intro rc hrc
      have : rc.1 ∈ TlsWriter.recordsOf .ApplicationDataTy (chunks RECORD_MAX_LEN data) := by rw [← hmap]; exact List.mem_map.mpr ⟨rc, hrc, rfl⟩
      obtain ⟨f, hf, he⟩ := List.mem_map.mp this
      rw [← he]
      exact TlsWriter.chunk_bound data f hf, by rw [hlen]; exact hn, hands_of_records rfl hmap, hrd⟩

/-! ### C74 -/

/-- C74 is false, for all data and all larger buffers: `read` takes the peer's data and then, although it has something to return, asks the transport again; here the
transport has nothing and says so (a stop: a failure or the end), and this is used up and not reported. A transport that blocks instead blocks `read`, with the data
already taken. -/
theorem C74_asks_again (m m' : Mode) (data : Bytes) (w : TlsWriter) (c : TlsClient) (hc : Connected w c) (hf : w.writer.faults = [])
    (hn : w.writeCount.toNat + (data.length + 16383) / 16384 < 2 ^ 64) (len : Nat) (hlen : data.length < len) :
    ∃ w' emitted, (TlsWriter.writeData m' .ApplicationDataTy data).run w = (.ok (), w') ∧ w'.writer.wire = w.writer.wire ++ emitted ∧
      ∀ (rd : Reader) (l : List Sym), rd.stream = ofBytes emitted ++ .stop :: l →
        ∃ c', (TlsClient.read m len).run { c with reader := { c.reader with reader := rd } } = (.ok data, c') ∧ c'.reader.reader.stream = l := by
  obtain ⟨w', emitted, sent, h1, h2, h3⟩ := hc.pending m' data hf hn
  refine ⟨w', emitted, h1, h2, fun rd l hrd => ?_⟩
  have hfl : (chunks RECORD_MAX_LEN data).flatten = data := chunks_flatten (by decide) data
  obtain ⟨s1, g1, g2, g3, g4, _⟩ := Pending.readBeyond (c := { c with reader := { c.reader with reader := rd } }) m (h3 rd _ hrd) len (by
    simp only [hc.empty, hfl]; simpa using hlen)
  obtain ⟨r', e1, e2⟩ := C12_between_records_partial m s1 l (by rw [g1.stream]; rfl)
  have := g4 _ _ (readApplicationData_err g1.decrypts g1.noMessage e1)
  refine ⟨{ c with reader := { s1 with reader := r' }, buf := [] }, this.trans ?_, e2⟩
  rw [hfl, hc.empty]
  rfl

/-- C74 is false of the code. -/
theorem C74_not_prompt (m : Mode) : ¬ ReadIsPrompt m := by
  intro h
  have hk : (List.replicate 32 (0 : UInt8)).length = 32 := by simp
  let w : TlsWriter := { writer := {}, encryptor := some (Encryptor.chacha m (List.replicate 32 0)), writeCount := 0, iv := some [] }
  let c : TlsClient := { reader := { reader := ⟨[]⟩, decryptor := some (Decryptor.chacha m (List.replicate 32 0)), readCount := 0, iv := some [] }, writer := TlsWriter.new {}, rng := ⟨[]⟩ }
  have hc : Connected w c := ⟨⟨rfl, rfl, Or.inr ⟨_, _, rfl, rfl, matching_chacha m m _ hk⟩⟩, rfl, rfl, rfl⟩
  have hn : w.writeCount.toNat + (([7] : Bytes).length + 16383) / 16384 < 2 ^ 64 := by show 0 + _ < _; decide
  obtain ⟨w', emitted, h1, h2, h3⟩ := C74_asks_again m m [7] w c hc rfl hn 2 (by decide)
  obtain ⟨r, hr⟩ : ∃ rd : Reader, rd.stream = ofBytes emitted ++ [.stop] := by
    by_cases he : emitted = []
    · exact ⟨⟨[.fail true]⟩, by rw [he]; rfl⟩
    · exact ⟨⟨[.data emitted, .fail true]⟩, by rw [Reader.stream_data _ he]; rfl⟩
  obtain ⟨c', g1, g2⟩ := h3 r [] hr
  obtain ⟨out, c'', p, e1, _, e3⟩ := h m [7] w w' c emitted hc (by simp) rfl hn h1 h2 r [.stop] hr 2 (by decide)
  rw [g1] at e1
  simp only [Prod.mk.injEq] at e1
  rw [← e1.2, g2] at e3
  simp at e3

/-- C74, what holds: with a buffer no longer than the data that has arrived, `read` fills it and does not ask for more. Missing: larger buffers. -/
theorem C74_full_buffer_partial (m m' : Mode) (data : Bytes) (w : TlsWriter) (c : TlsClient) (hc : Connected w c) (hf : w.writer.faults = [])
    (hn : w.writeCount.toNat + (data.length + 16383) / 16384 < 2 ^ 64) (len : Nat) (hlen : len ≤ data.length) :
    ∃ w' emitted, (TlsWriter.writeData m' .ApplicationDataTy data).run w = (.ok (), w') ∧ w'.writer.wire = w.writer.wire ++ emitted ∧
      ∀ (rd : Reader) (l : List Sym), rd.stream = ofBytes emitted ++ l →
        ∃ c' p, (TlsClient.read m len).run { c with reader := { c.reader with reader := rd } } = (.ok (data.take len), c') ∧ c'.reader.reader.stream = p ++ l := by
  obtain ⟨w', emitted, sent, h1, h2, h3⟩ := hc.pending m' data hf hn
  refine ⟨w', emitted, h1, h2, fun rd l hrd => ?_⟩
  have hfl : (chunks RECORD_MAX_LEN data).flatten = data := chunks_flatten (by decide) data
  obtain ⟨c1, w1, sent1, ds1, g1, g2, g3, _, _⟩ := Pending.read (c := { c with reader := { c.reader with reader := rd } }) m (h3 rd l hrd) len (by
    simp only [hc.empty, hfl]; simpa using hlen)
  refine ⟨c1, _, g1.trans ?_, g2.stream⟩
  rw [hfl, hc.empty]
  rfl

/-- C74, what holds without any peer: a `read` that can be served from the buffer does not touch the transport at all. -/
theorem C74_buffered_partial (m : Mode) (len : Nat) (c : TlsClient) (h : len ≤ c.buf.length) :
    (TlsClient.read m len).run c = (.ok (c.buf.take len), { c with buf := c.buf.drop len }) := by
  obtain ⟨n, x, c', h1, h2, h3, h4⟩ := TlsClient.read_spec m len c
  have hn : n = 0 := by
    by_contra hne
    have := h4 0 (by rw [readApp_length]; omega)
    simp at this
    omega
  subst hn
  rw [h1]
  cases x with
  | ok out =>
    obtain ⟨h5, h6⟩ := h3
    rcases h6 with ⟨h6, _⟩ | ⟨_, _, rs0, k, h7, _⟩
    · simp only [readApp, List.flatMap_nil, List.append_nil] at h5
      obtain ⟨e1, e2⟩ := List.append_inj (s₁ := c.buf.take len) (t₁ := c.buf.drop len) (s₂ := out) (t₂ := c'.buf) (by rw [List.take_append_drop, h5]) (by rw [List.length_take, h6]; omega)
      rw [h2, e1, e2]
      rfl
    · simp [readApp] at h7
  | err k => exact absurd h3 id
  | panic => obtain ⟨rs0, h5, _⟩ := h3; simp [readApp] at h5
  | diverge => obtain ⟨rs0, h5, _⟩ := h3; simp [readApp] at h5

/-- The hypotheses of the theorems are met by the cipher of the crate with any key. -/
example (m : Mode) (key iv : Bytes) (hk : key.length = 32) : ∃ w c, Connected w c ∧ w.writer.faults = [] ∧ w.writeCount.toNat + (([1, 2, 3] : Bytes).length + 16383) / 16384 < 2 ^ 64 :=
  ⟨{ writer := {}, encryptor := some (Encryptor.chacha m key), writeCount := 0, iv := some iv },
    { reader := { reader := ⟨[]⟩, decryptor := some (Decryptor.chacha m key), readCount := 0, iv := some iv }, writer := TlsWriter.new {}, rng := ⟨[]⟩ },
    ⟨⟨rfl, rfl, Or.inr ⟨_, _, rfl, rfl, matching_chacha m m key hk⟩⟩, rfl, rfl, rfl⟩, rfl, by show 0 + _ < _; decide⟩

end Husk
