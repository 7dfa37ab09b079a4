import Verif.Props.SessionData
/-! C81, C82, C83: what a connection does after a refused record, after `close`, and with empty records. -/

namespace Husk

open Item Spec TlsReader TlsClient

/-! ### C81: refused records do not end the connection -/

/-- A record as the network delivers it: type, version bytes, fragment. -/
abbrev Raw := ContentType × UInt8 × UInt8 × Bytes

/-- Its bytes. -/
def Raw.bytes (r : Raw) : Bytes := recordBytes r.1.toU8 r.2.1 r.2.2.1 r.2.2.2

/-- The reader with decryptor `d` refuses the record where it stands: the fragment is too short for a tag, or does not open under the number it has reached. -/
structure Refused (d : Decryptor) (s : TlsReader) (r : Raw) : Prop where
  length : r.2.2.2.length ≤ 18432
  bad : r.2.2.2.length < d.macLen ∨ d.decrypt s.nonce r.2.2.2 (s.ad r.1 r.2.1 r.2.2.1 (r.2.2.2.length - d.macLen)) = .err .BadRecordMac

theorem readMany_refused (m : Mode) (len : Nat) (hl : 0 < len) (d : Decryptor) (bad : List Raw) (lens : List Nat) (l : List Sym) (c : TlsClient) (hb : c.buf = [])
    (hd : c.reader.decryptor = some d) (hg : NoMessage c.reader.handshakeBuffer) (hr : ∀ r ∈ bad, Refused d c.reader r) (hs : c.reader.reader.stream = ofBytes (bad.flatMap Raw.bytes) ++ l) :
    ∃ rd, rd.stream = l ∧ readMany m (List.replicate bad.length len ++ lens) c =
      (List.replicate bad.length (.ok []) ++ (readMany m lens { c with reader := { c.reader with reader := rd } }).1, (readMany m lens { c with reader := { c.reader with reader := rd } }).2) := by
  induction bad generalizing c with
  | nil => exact ⟨c.reader.reader, hs, by simp⟩
  | cons r bad ih =>
    obtain ⟨h1, h2⟩ := hr r (by simp)
    rw [List.flatMap_cons, ofBytes_append, List.append_assoc] at hs
    obtain ⟨r', e1, e2⟩ := C25_bad_record_is_end_of_stream m len hl c d r.1 r.2.1 r.2.2.1 r.2.2.2 _ hb hd hg h1 h2 hs
    obtain ⟨rd, e3, e4⟩ := ih { c with reader := { c.reader with reader := r' } } hb hd hg (fun q hq => ⟨(hr q (by simp [hq])).1, (hr q (by simp [hq])).2⟩) e2
    refine ⟨rd, e3, ?_⟩
    rw [List.length_cons, List.replicate_succ, List.cons_append, readMany, e1]
    simp only
    rw [e4, List.replicate_succ]
    rfl

/-- C81 is false: however many records that do not open the network puts before what the peer sends, and whatever they are, each costs the application one `read` that
returns 0; the number is not used up, nothing is sent to the peer, and the next `read` delivers what the peer sent. So the attempts at forging a record are not limited. -/
theorem C81_not_ended (m m' : Mode) (data : Bytes) (w : TlsWriter) (c : TlsClient) (hc : Connected w c) (hf : w.writer.faults = []) (hn : w.writeCount.toNat + (data.length + 16383) / 16384 < 2 ^ 64)
    (d : Decryptor) (hd : c.reader.decryptor = some d) (bad : List Raw) (hr : ∀ r ∈ bad, Refused d c.reader r) (len : Nat) (hl : 0 < len) :
    ∃ w' emitted, (TlsWriter.writeData m' .ApplicationDataTy data).run w = (.ok (), w') ∧ w'.writer.wire = w.writer.wire ++ emitted ∧
      ∀ (rd : Reader) (l : List Sym), rd.stream = ofBytes (bad.flatMap Raw.bytes) ++ (ofBytes emitted ++ l) →
        ∃ c', readMany m (List.replicate bad.length len ++ [data.length]) { c with reader := { c.reader with reader := rd } } = (List.replicate bad.length (.ok []) ++ [.ok data], c') ∧
          c'.writer = c.writer := by
  obtain ⟨w', emitted, h1, h2, h3⟩ := C22_stream m m' data w c hc hf hn
  refine ⟨w', emitted, h1, h2, fun rd l hs => ?_⟩
  obtain ⟨rd', e1, e2⟩ := readMany_refused m len hl d bad [data.length] _ { c with reader := { c.reader with reader := rd } } hc.empty hd hc.noMessage
    (fun r h => ⟨(hr r h).1, (hr r h).2⟩) hs
  obtain ⟨outs, c', e3, e4, e5⟩ := h3 rd' l e1 [data.length] (by simp)
  have e6 : outs = [data] := by
    have h1 : outs.length = 1 := by simpa using congrArg List.length e4
    obtain ⟨o, rfl⟩ := List.length_eq_one_iff.mp h1
    simpa using e5
  subst e6
  refine ⟨c', ?_, ?_⟩
  · rw [e2]
    dsimp only
    rw [e3]
    rfl
  · have := congrArg (·.2) e3
    simp only [readMany] at this
    rcases hx : (TlsClient.read m data.length).run { c with reader := { c.reader with reader := rd' } } with ⟨x, c1⟩
    rw [hx] at this
    obtain ⟨_, _, hw, _⟩ := C22_read m _ _ _ _ hx
    cases x <;> (simp only at this; rw [← this]; exact hw)

/-- The records without content are refused by the cipher of the crate at every number, so there are streams with any number of them. -/
example (m : Mode) (key : Bytes) (s : TlsReader) (n : Nat) (ty : ContentType) : ∀ r ∈ List.replicate n ((ty, 3, 3, []) : Raw), Refused (Decryptor.chacha m key) s r := by
  intro r hr
  rw [(List.mem_replicate.mp hr).2]
  exact ⟨by simp, .inl (show 0 < 16 by decide)⟩

/-- C81, the part that holds: a `read` that meets a refused record returns at once, with what it had; nothing of the record is delivered, and reader and writer are
otherwise as before. Missing: later calls are not refused. -/
theorem C81_stops_partial (m : Mode) (d : Decryptor) (r : Raw) (l : List Sym) (c : TlsClient) (hb : c.buf = [])
    (hd : c.reader.decryptor = some d) (hg : NoMessage c.reader.handshakeBuffer) (hr : Refused d c.reader r) (hs : c.reader.reader.stream = ofBytes r.bytes ++ l) (len : Nat) (hl : 0 < len) :
    ∃ rd, rd.stream = l ∧ (TlsClient.read m len).run c = (.ok [], { c with reader := { c.reader with reader := rd } }) := by
  obtain ⟨r', e1, e2⟩ := C25_bad_record_is_end_of_stream m len hl c d r.1 r.2.1 r.2.2.1 r.2.2.2 _ hb hd hg hr.1 hr.2 hs
  exact ⟨r', e2, e1⟩

/-! ### C82: `close` does not end the connection -/

/-- C82 is false: in every session, after `close` a `write` succeeds and puts its data on the wire behind the close_notify. -/
theorem C82_sent_after_close (m : Mode) (rd : Reader) (wr : Writer) (rng : Rng) (hfa : wr.faults = []) (c : TlsClient) (h : TlsClient.new m rd wr rng = (.ok (), c)) (data : Bytes)
    (hn : (chunks 16384 data).length + 1 < 2 ^ 64 - 1) :
    ∃ S clear prot a b protWire pre post, Completed m rd wr rng c S clear prot a b protWire pre post ∧
      (runCalls m [.close, .write data] c).2.writer.writer.wire = wr.wire ++ (clientFlight S.random S.point S.keys S.clientVerify).flatten ++
        (protectedRecord S.keys.clientKey S.keys.clientIv 1 21 [2, 0] ++ protectedItems S.keys.clientKey S.keys.clientIv 2 ((chunks 16384 data).map fun f => (23, f))) ∧
      ∃ r, (runCalls m [.close, .write data] c).1 = [.done r, .write (.ok data.length)] ∧ r = .ok () := by
  obtain ⟨S, clear, prot, a, b, pw, pre, post, h1, h2, h3⟩ := C67_wire m rd wr rng hfa c h [.close, .write data] (by
    simp only [List.flatMap_cons, Call.records, List.flatMap_nil, List.append_nil, List.length_append, List.length_cons, List.length_nil, List.length_map]; omega)
  refine ⟨S, clear, prot, a, b, pw, pre, post, h1, ?_, ?_⟩
  · rw [h2]
    simp only [List.flatMap_cons, Call.records, List.flatMap_nil, List.append_nil, List.cons_append, List.nil_append, protectedItems]
  · generalize (runCalls m [.close, .write data] c).1 = rs at h3
    match rs, h3 with
    | [x, y], .cons p (.cons q .nil) =>
      have p := p _ rfl
      have q := q _ rfl
      subst p q
      exact ⟨_, rfl, rfl⟩

/-- C82, the part that holds: `close` sends exactly one record, an alert with the bytes 2 (fatal) and 0 (close_notify), and as long as the application only reads and flushes after
it, nothing more is sent. -/
theorem C82_close_partial (m : Mode) (rd : Reader) (wr : Writer) (rng : Rng) (hfa : wr.faults = []) (c : TlsClient) (h : TlsClient.new m rd wr rng = (.ok (), c)) (calls after : List Call)
    (ha : ∀ k ∈ after, k = .flush ∨ ∃ len, k = .read len) (hn : (calls.flatMap Call.records).length + 1 < 2 ^ 64 - 1) :
    ∃ S clear prot a b protWire pre post, Completed m rd wr rng c S clear prot a b protWire pre post ∧
      (runCalls m (calls ++ .close :: after) c).2.writer.writer.wire =
        (runCalls m calls c).2.writer.writer.wire ++ protectedRecord S.keys.clientKey S.keys.clientIv (1 + (calls.flatMap Call.records).length) 21 [2, 0] := by
  have e0 : after.flatMap Call.records = [] := by
    rw [List.flatMap_eq_nil_iff]
    intro k hk
    rcases ha k hk with rfl | ⟨len, rfl⟩ <;> rfl
  obtain ⟨S, clear, prot, a, b, pw, pre, post, h1, h2, h3⟩ := C67_wire m rd wr rng hfa c h (calls ++ .close :: after) (by
    simp only [List.flatMap_append, List.flatMap_cons, e0, Call.records, List.length_append, List.length_cons, List.length_nil]; omega)
  obtain ⟨k1, k2, k3, k4⟩ := h1.ready.lengths
  have hw : Writes m S.keys.clientKey S.keys.clientIv 1 c.writer := ⟨h1.ready.encryptor, h1.ready.writerIv, by rw [h1.ready.writeCount]; rfl, h1.faults hfa⟩
  obtain ⟨-, g2, -⟩ := runCalls_sends k1 k3 calls hw (by omega)
  refine ⟨S, clear, prot, a, b, pw, pre, post, h1, ?_⟩
  have app : ∀ (xs ys : List (UInt8 × Bytes)) (k : Nat) (key iv : Bytes), protectedItems key iv k (xs ++ ys) = protectedItems key iv k xs ++ protectedItems key iv (k + xs.length) ys := by
    intro xs
    induction xs with
    | nil => intro ys k key iv; simp [protectedItems]
    | cons x xs ih =>
      intro ys k key iv
      simp only [List.cons_append, protectedItems, ih, List.append_assoc, List.length_cons]
      rw [show k + 1 + xs.length = k + (xs.length + 1) by omega]
  rw [h2, g2, h1.sent, List.flatMap_append, List.flatMap_cons, e0, app]
  simp only [Call.records, List.append_nil, protectedItems, List.append_assoc]

/-! ### C83: empty records -/

/-- C83 is false: for every number `n` a connected peer can send `n` empty records that a single `read` takes, one after the other, before it delivers anything; if nothing
follows it returns 0 after having taken all of them. -/
theorem C83_not_bounded (m m' : Mode) (n len : Nat) (hl : 0 < len) (w : TlsWriter) (c : TlsClient) (hc : Connected w c) (hf : w.writer.faults = []) (hn : w.writeCount.toNat + n < 2 ^ 64) :
    ∃ w' emitted, (TlsWriter.writeChunks m' .ApplicationDataTy (List.replicate n [])).run w = (.ok (), w') ∧ w'.writer.wire = w.writer.wire ++ emitted ∧
      ∀ rd : Reader, rd.stream = ofBytes emitted → ∃ c', (TlsClient.read m len).run { c with reader := { c.reader with reader := rd } } = (.ok [], c') ∧
        c'.reader.reader.stream = [] ∧ c'.reader.readCount.toNat = c.reader.readCount.toNat + n := by
  have hb : ∀ x ∈ List.replicate n ([] : Bytes), x.length ≤ RECORD_MAX_LEN := by
    intro x hx; rw [(List.mem_replicate.mp hx).2]; simp
  obtain ⟨w', hw⟩ := TlsWriter.writeChunks_ok (m := m') (ty := .ApplicationDataTy) hb hc.synced.sealsShort hf (by rw [List.length_replicate]; exact hn)
  obtain ⟨sent, hsent, hmap⟩ := TlsWriter.writeChunks_inv hb hw
  have hlen : sent.length = n := by
    rw [← List.length_map (f := Prod.fst), hmap]; simp [TlsWriter.recordsOf]
  refine ⟨w', wireOf sent, hw, hsent.wire, fun rd hrd => ?_⟩
  have hp : Pending w sent (List.replicate n []) w' [] { c.reader with reader := rd } :=
    ⟨hsent, hc.synced, hc.decrypts, hc.noMessage, by
      intro rc hrc
      have : rc.1 ∈ TlsWriter.recordsOf .ApplicationDataTy (List.replicate n []) := by rw [← hmap]; exact List.mem_map.mpr ⟨rc, hrc, rfl⟩
      obtain ⟨f, hf, he⟩ := List.mem_map.mp this
      rw [← he]
      exact hb f hf, by rw [hlen]; exact hn, hands_of_records rfl hmap, by simpa using hrd⟩
  have hbuf := hc.empty
  obtain ⟨s1, p1, p2, p3, p4, -⟩ := Pending.readBeyond (c := { c with reader := { c.reader with reader := rd } }) m hp len (by simp [hbuf]; exact hl)
  obtain ⟨r', e1, e2⟩ := readRecord_end m s1 p1.stream
  have e3 := p4 _ _ (readApplicationData_err p1.decrypts p1.noMessage e1)
  refine ⟨_, e3.trans (by simp [hbuf]; rfl), e2, ?_⟩
  have h1 : s1.readCount = w'.writeCount := p1.synced.1
  have h2 : c.reader.readCount = w.writeCount := hc.synced.1
  show s1.readCount.toNat = _
  rw [h1, h2, hsent.same.2.2.1, UInt64.toNat_add, UInt64.toNat_ofNat', hlen]
  omega

theorem flatMap_length_ge {α β : Type} (f : α → List β) (xs : List α) : (xs.filter fun x => f x ≠ []).length ≤ (xs.flatMap f).length := by
  induction xs with
  | nil => simp
  | cons x xs ih =>
    rw [List.flatMap_cons, List.length_append, List.filter_cons]
    by_cases h : f x = []
    · simp only [h, ne_eq, not_true_eq_false, decide_false, Bool.false_eq_true, if_false, List.length_nil]
      simp only [ne_eq] at ih
      omega
    · have : 0 < (f x).length := List.length_pos_iff.mpr h
      simp only [h, ne_eq, not_false_eq_true, decide_true, if_true, List.length_cons]
      simp only [ne_eq] at ih
      omega

/-- C83, the part that holds: a `read` with a buffer of `len` bytes asks the record layer for at most `len` pieces of data that are not empty (`n` is the number of requests, `rs` their
results). -/
theorem C83_data_partial (m : Mode) (len : Nat) (c c' : TlsClient) (x : Res Bytes) (h : (TlsClient.read m len).run c = (x, c')) :
    ∃ n, c'.reader = (readApp m n c.reader).2 ∧ ((readApp m n c.reader).1.filter fun r => delivered r ≠ []).length ≤ len := by
  obtain ⟨n, h1, -, -, h2, -⟩ := C22_read m len c c' x h
  refine ⟨n, h1, ?_⟩
  have hl := readApp_length m n c.reader
  rcases Nat.eq_zero_or_pos n with rfl | hn
  · simp [readApp]
  · have h3 := h2 (n - 1) (by omega)
    generalize hrs : (readApp m n c.reader).1 = rs at *
    have h4 := flatMap_length_ge delivered (rs.take (n - 1))
    have h5 : rs = rs.take (n - 1) ++ rs.drop (n - 1) := (List.take_append_drop _ _).symm
    rw [h5, List.filter_append, List.length_append]
    have h6 : (rs.drop (n - 1)).length ≤ 1 := by rw [List.length_drop]; omega
    have h7 := List.length_filter_le (fun r => decide (delivered r ≠ [])) (rs.drop (n - 1))
    rw [List.length_append] at h3
    omega

end Husk
