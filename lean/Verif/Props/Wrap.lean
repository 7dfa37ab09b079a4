import Verif.Props.KeystreamReuse
import Verif.Proofs.Blocks
/-! C94: what happens when the 2^64 record numbers are used up. -/

namespace Husk

open Item Spec TlsReader TlsClient

/-! ### Specification -/

/-- Protected records with consecutive numbers that start again from 0 after 2^64 - 1. -/
def wrappingItems (key iv : Bytes) : Nat → List (UInt8 × Bytes) → Bytes
  | _, [] => []
  | k, r :: rs => protectedRecord key iv (k % 2 ^ 64) r.1 r.2 ++ wrappingItems key iv (k + 1) rs

/-! ### Proofs -/

theorem wrappingItems_append (key iv : Bytes) (k : Nat) (a b : List (UInt8 × Bytes)) :
    wrappingItems key iv k (a ++ b) = wrappingItems key iv k a ++ wrappingItems key iv (k + a.length) b := by
  induction a generalizing k with
  | nil => rfl
  | cons x a ih => simp only [List.cons_append, wrappingItems, ih, List.append_assoc, List.length_cons]; congr 3; omega

/-- The numbers before the wrap are the ordinary ones. -/
theorem wrappingItems_below (key iv : Bytes) (k : Nat) (rs : List (UInt8 × Bytes)) (h : k + rs.length ≤ 2 ^ 64) : wrappingItems key iv k rs = protectedItems key iv k rs := by
  induction rs generalizing k with
  | nil => rfl
  | cons r rs ih =>
    rw [List.length_cons] at h
    simp only [wrappingItems, protectedItems]
    rw [Nat.mod_eq_of_lt (by omega), ih (k + 1) (by omega)]

/-- One record without write errors: it is sent; then the counter wraps in release builds and the addition panics in debug builds. -/
theorem writeRecord_wrap {m : Mode} {key iv : Bytes} {k : Nat} {w : TlsWriter} (hk : key.length = 32) (hi : iv.length = 12) (hw : Writes m key iv (k % 2 ^ 64) w)
    (ty : ContentType) (f : Bytes) (hf : f.length ≤ RECORD_MAX_LEN) :
    ∃ x w', (TlsWriter.writeRecord m ⟨ty, 3, 3, f⟩).run w = (x, w') ∧ w'.writer.wire = w.writer.wire ++ protectedRecord key iv (k % 2 ^ 64) ty.toU8 f ∧
      (m = .release → x = .ok () ∧ Writes m key iv ((k + 1) % 2 ^ 64) w') ∧ (m = .debug → k % 2 ^ 64 = 2 ^ 64 - 1 → x = .panic) := by
  have hs := sealed_chacha hw.encryptor hk hw.iv hi ty f hf
  rw [hw.count] at hs
  obtain ⟨c, hc⟩ : ∃ c, c = Spec.Aead.sealMsg key (recordNonce iv (k % 2 ^ 64)) (recordAad (k % 2 ^ 64) ty.toU8 3 3 f.length) f := ⟨_, rfl⟩
  rw [← hc] at hs
  have hcl : c.length ≤ ENC_RECORD_MAX_LEN := by
    obtain ⟨c', h1, h2⟩ := CrateWriter.sealsShort ⟨m, key, hk, hw.encryptor⟩ |>.seal ⟨ty, 3, 3, f⟩ hf
    rw [hs] at h1
    cases h1
    exact h2
  obtain ⟨l1, l2, l3, l4⟩ := TlsWriter.logged_same w ⟨ty, 3, 3, f⟩ c
  have hp : protectedRecord key iv (k % 2 ^ 64) ty.toU8 f = recordBytes ty.toU8 3 3 c := by rw [hc]; rfl
  have h1 : (1 : UInt64).toNat = 1 := rfl
  rw [TlsWriter.writeRecord_run, hs]
  simp only
  rw [if_neg (by omega), hp]
  rcases TlsWriter.emit_cases m ⟨ty, 3, 3, f⟩ c (w.logged ⟨ty, 3, 3, f⟩ c) hcl with ⟨w1, g1, g2, g3⟩ | ⟨w1, n, g1, g2, g3⟩
  · rw [g1, l1] at *
    cases m with
    | release =>
      have hb : (TlsWriter.bump .release).run { TlsWriter.logged w ⟨ty, 3, 3, f⟩ c with writer := w1 } =
          (.ok (), { TlsWriter.logged w ⟨ty, 3, 3, f⟩ c with writer := w1, writeCount := w.writeCount + 1 }) := by
        by_cases hlt : w.writeCount.toNat + 1 < 2 ^ 64
        · simp only [TlsWriter.bump, addU64, l3, h1, if_pos hlt]
        · simp only [TlsWriter.bump, addU64, l3, h1, if_neg hlt]
      refine ⟨_, _, hb, g2, fun _ => ⟨rfl, ⟨l2.trans hw.encryptor, l4.trans hw.iv, ?_, g3 hw.faults⟩⟩, fun h => by cases h⟩
      simp only [UInt64.toNat_add, hw.count, h1]
      omega
    | debug =>
      rcases TlsWriter.bump_cases .debug { TlsWriter.logged w ⟨ty, 3, 3, f⟩ c with writer := w1 } with hb | ⟨hb, -⟩
      · refine ⟨_, _, hb, g2, fun h => (by cases h), fun _ h => ?_⟩
        exfalso
        simp only [TlsWriter.bump, addU64, l3, hw.count, h1, h] at hb
        rw [if_neg (by omega)] at hb
        cases hb
      · exact ⟨_, _, hb, g2, fun h => (by cases h), fun _ _ => rfl⟩
  · exact absurd (l1 ▸ hw.faults) g3

theorem writeChunks_wrap {key iv : Bytes} (hk : key.length = 32) (hi : iv.length = 12) (ty : ContentType) (cs : List Bytes) {k : Nat} {w : TlsWriter}
    (hw : Writes .release key iv (k % 2 ^ 64) w) (hcs : ∀ c ∈ cs, c.length ≤ RECORD_MAX_LEN) :
    ∃ w', (TlsWriter.writeChunks .release ty cs).run w = (.ok (), w') ∧ Writes .release key iv ((k + cs.length) % 2 ^ 64) w' ∧
      w'.writer.wire = w.writer.wire ++ wrappingItems key iv k (cs.map fun f => (ty.toU8, f)) := by
  induction cs generalizing k w with
  | nil => exact ⟨w, rfl, hw, (List.append_nil _).symm⟩
  | cons c cs ih =>
    have hr : Record.new ty TLS_VERSION.1 TLS_VERSION.2 c = .ok ⟨ty, TLS_VERSION.1, TLS_VERSION.2, c⟩ := Record.new_ok _ _ _ _ (hcs c (by simp))
    rw [TlsWriter.writeChunks, St.bind_of_ok (a := ⟨ty, TLS_VERSION.1, TLS_VERSION.2, c⟩) (s' := w) (by rw [hr]; rfl)]
    obtain ⟨x, w1, h1, h2, h3, -⟩ := writeRecord_wrap hk hi hw ty c (hcs c (by simp))
    obtain ⟨rfl, h4⟩ := h3 rfl
    obtain ⟨w', i1, i2, i3⟩ := ih h4 fun c hc => hcs c (List.mem_cons_of_mem _ hc)
    refine ⟨w', (St.bind_of_ok h1).trans i1, ?_, ?_⟩
    · rw [List.length_cons, ← Nat.add_assoc, Nat.add_right_comm]; exact i2
    · rw [i3, h2]; simp only [List.map_cons, wrappingItems, List.append_assoc]

theorem Call.run_wrap {key iv : Bytes} {k : Nat} {c : TlsClient} (hk : key.length = 32) (hi : iv.length = 12) (hw : Writes .release key iv (k % 2 ^ 64) c.writer) (call : Call) :
    Writes .release key iv ((k + call.records.length) % 2 ^ 64) (call.run .release c).2.writer ∧
      (call.run .release c).2.writer.writer.wire = c.writer.writer.wire ++ wrappingItems key iv k call.records ∧
      ∀ r, call.good = some r → (call.run .release c).1 = r := by
  cases call with
  | read len =>
    obtain ⟨f, hf⟩ := read_only .release len
    simp only [Call.run, hf, Call.records, wrappingItems, List.append_nil, List.length_nil, Nat.add_zero, Call.good]
    exact ⟨hw, trivial, by simp⟩
  | flush => exact ⟨hw, (List.append_nil _).symm, fun r h => Option.some.inj h⟩
  | write buf =>
    rw [Call.records, List.length_map]
    obtain ⟨w', h1, h2, h3⟩ := writeChunks_wrap hk hi .ApplicationDataTy _ hw (TlsWriter.chunk_bound buf)
    have h4 : (TlsClient.write .release buf).run c = (.ok buf.length, { c with writer := w' }) := by
      have h1' : (TlsWriter.writeData .release .ApplicationDataTy buf).run c.writer = (.ok (), w') := h1
      rw [TlsClient.write, St.bind_run, writeAll_run, writeApplicationData_run _ _ _ (by rw [hw.encryptor]; rfl), h1']
      rfl
    simp only [Call.run, h4]
    exact ⟨h2, h3, fun r h => Option.some.inj h⟩
  | close =>
    obtain ⟨w', h1, h2, h3⟩ := writeChunks_wrap hk hi .AlertTy _ hw (TlsWriter.chunk_bound [2, 0])
    have h4 : (TlsClient.close .release).run c = (.ok (), { c with writer := w' }) := by
      have : (TlsWriter.writeAlert .release { level := .fatal, description := .close_notify }).run c.writer = (.ok (), w') := by
        rw [writeAlert_run]; exact h1
      simp only [TlsClient.close, onWriter, St.zoom_run, this]
    simp only [Call.run, h4]
    exact ⟨h2, h3, fun r h => Option.some.inj h⟩

theorem runCalls_wrap {key iv : Bytes} (hk : key.length = 32) (hi : iv.length = 12) (calls : List Call) {k : Nat} {c : TlsClient}
    (hw : Writes .release key iv (k % 2 ^ 64) c.writer) :
    (runCalls .release calls c).2.writer.writer.wire = c.writer.writer.wire ++ wrappingItems key iv k (calls.flatMap Call.records) ∧
    List.Forall₂ (fun (call : Call) r => ∀ g, call.good = some g → r = g) calls (runCalls .release calls c).1 := by
  induction calls generalizing k c with
  | nil => exact ⟨(List.append_nil _).symm, .nil⟩
  | cons call calls ih =>
    simp only [List.flatMap_cons]
    obtain ⟨h1, h2, h3⟩ := Call.run_wrap hk hi hw call
    obtain ⟨i2, i3⟩ := ih h1
    refine ⟨?_, .cons h3 i3⟩
    show (runCalls .release calls (call.run .release c).2).2.writer.writer.wire = _
    rw [i2, h2, wrappingItems_append, List.append_assoc]

/-! ### C94 -/

/-- C94, release builds: over a transport without write errors every history of calls, of whatever length, succeeds and puts its protected records on the wire with
numbers that start again from 0 after 2^64 - 1. -/
theorem C94_wire (rd : Reader) (wr : Writer) (rng : Rng) (hfa : wr.faults = []) (c : TlsClient) (h : TlsClient.new .release rd wr rng = (.ok (), c)) (calls : List Call) :
    ∃ S clear prot a b protWire pre post, Completed .release rd wr rng c S clear prot a b protWire pre post ∧
      (runCalls .release calls c).2.writer.writer.wire = wr.wire ++ (clientFlight S.random S.point S.keys S.clientVerify).flatten ++
        wrappingItems S.keys.clientKey S.keys.clientIv 1 (calls.flatMap Call.records) ∧
      List.Forall₂ (fun (call : Call) r => ∀ g, call.good = some g → r = g) calls (runCalls .release calls c).1 := by
  obtain ⟨S, clear, prot, a, b, protWire, pre, post, hC⟩ := C27_flight_partial .release rd wr rng c h
  obtain ⟨k1, k2, k3, k4⟩ := hC.ready.lengths
  have hw : Writes .release S.keys.clientKey S.keys.clientIv (1 % 2 ^ 64) c.writer := ⟨hC.ready.encryptor, hC.ready.writerIv, by rw [hC.ready.writeCount]; rfl, hC.faults hfa⟩
  obtain ⟨h2, h3⟩ := runCalls_wrap k1 k3 calls hw
  exact ⟨S, clear, prot, a, b, protWire, pre, post, hC, by rw [h2, hC.sent], h3⟩

/-- C94 is false in release builds: after `x` and 2^64 - 1 further records a write of `y` succeeds and uses the number of `x` again. Key and nonce are the same, so
the xor of the two records on the wire is the xor of the plaintexts. -/
theorem C94_number_reused (rd : Reader) (wr : Writer) (rng : Rng) (hfa : wr.faults = []) (c : TlsClient) (h : TlsClient.new .release rd wr rng = (.ok (), c))
    (x y : Bytes) (hx : x ≠ []) (hy : y ≠ []) (hxl : x.length ≤ 2 ^ 14) (hyl : y.length ≤ 2 ^ 14) (calls : List Call) (hn : (calls.flatMap Call.records).length = 2 ^ 64 - 1) :
    ∃ S clear prot a b protWire pre post, Completed .release rd wr rng c S clear prot a b protWire pre post ∧
      List.Forall₂ (fun (call : Call) r => ∀ g, call.good = some g → r = g) ([.write x] ++ calls ++ [.write y]) (runCalls .release ([.write x] ++ calls ++ [.write y]) c).1 ∧
      ∃ between, (runCalls .release ([.write x] ++ calls ++ [.write y]) c).2.writer.writer.wire = wr.wire ++ (clientFlight S.random S.point S.keys S.clientVerify).flatten ++
        (protectedRecord S.keys.clientKey S.keys.clientIv 1 23 x ++ between ++ protectedRecord S.keys.clientKey S.keys.clientIv 1 23 y) ∧
      List.zipWith (· ^^^ ·) (((protectedRecord S.keys.clientKey S.keys.clientIv 1 23 x).drop 5).take x.length)
        (((protectedRecord S.keys.clientKey S.keys.clientIv 1 23 y).drop 5).take y.length) = List.zipWith (· ^^^ ·) x y := by
  obtain ⟨S, clear, prot, a, b, protWire, pre, post, hC, h1, h2⟩ := C94_wire rd wr rng hfa c h ([.write x] ++ calls ++ [.write y])
  have hR : RECORD_MAX_LEN = 2 ^ 14 := rfl
  have hch : ∀ z : Bytes, z ≠ [] → z.length ≤ 2 ^ 14 → chunks 16384 z = [z] := fun z h0 hl => chunks_small h0 (by rw [hR]; exact hl)
  refine ⟨S, clear, prot, a, b, protWire, pre, post, hC, h2, wrappingItems S.keys.clientKey S.keys.clientIv 2 (calls.flatMap Call.records), ?_, ?_⟩
  · rw [h1]
    congr 1
    simp only [List.flatMap_append, List.flatMap_cons, List.flatMap_nil, List.append_nil, Call.records, hch x hx hxl, hch y hy hyl, List.map_cons, List.map_nil,
      wrappingItems_append, wrappingItems, List.length_append, List.length_cons, List.length_nil, hn]
    norm_num
  · have htake : ∀ z : Bytes, ((protectedRecord S.keys.clientKey S.keys.clientIv 1 23 z).drop 5).take z.length =
        Spec.ChaCha20.encrypt S.keys.clientKey 1 (recordNonce S.keys.clientIv 1) z := by
      intro z
      rw [protectedRecord, recordBytes, List.drop_left' (by simp), Spec.Aead.sealMsg]
      rw [List.take_append_of_le_length (by simp [Spec.ChaCha20.encrypt]), List.take_of_length_le (by simp [Spec.ChaCha20.encrypt])]
    rw [htake x, htake y, encrypt_xor]

/-- C94, debug builds: the write that uses the last number, 2^64 - 1, sends its record and panics. -/
theorem C94_debug_panics (rd : Reader) (wr : Writer) (rng : Rng) (hfa : wr.faults = []) (c : TlsClient) (h : TlsClient.new .debug rd wr rng = (.ok (), c))
    (x : Bytes) (hx : x ≠ []) (hxl : x.length ≤ 2 ^ 14) (calls : List Call) (hn : (calls.flatMap Call.records).length = 2 ^ 64 - 2) :
    ∃ S clear prot a b protWire pre post, Completed .debug rd wr rng c S clear prot a b protWire pre post ∧
      ((Call.write x).run .debug (runCalls .debug calls c).2).1 = .write .panic ∧
      ((Call.write x).run .debug (runCalls .debug calls c).2).2.writer.writer.wire = wr.wire ++ (clientFlight S.random S.point S.keys S.clientVerify).flatten ++
        protectedItems S.keys.clientKey S.keys.clientIv 1 (calls.flatMap Call.records ++ [(23, x)]) := by
  obtain ⟨S, clear, prot, a, b, protWire, pre, post, hC⟩ := C27_flight_partial .debug rd wr rng c h
  obtain ⟨k1, k2, k3, k4⟩ := hC.ready.lengths
  have hw : Writes .debug S.keys.clientKey S.keys.clientIv 1 c.writer := ⟨hC.ready.encryptor, hC.ready.writerIv, by rw [hC.ready.writeCount]; rfl, hC.faults hfa⟩
  obtain ⟨h1, h2, -⟩ := runCalls_sends k1 k3 calls hw (by omega)
  have hR : RECORD_MAX_LEN = 2 ^ 14 := rfl
  obtain ⟨d, hd⟩ : ∃ d, d = (runCalls .debug calls c).2 := ⟨_, rfl⟩
  rw [← hd] at h1 h2 ⊢
  have hlast : 1 + (calls.flatMap Call.records).length = 2 ^ 64 - 1 := by omega
  rw [hlast] at h1
  have h1' : Writes .debug S.keys.clientKey S.keys.clientIv ((2 ^ 64 - 1) % 2 ^ 64) d.writer := h1
  obtain ⟨r, w', g1, g2, -, g4⟩ := writeRecord_wrap k1 k3 h1' .ApplicationDataTy x (by rw [hR]; exact hxl)
  obtain rfl := g4 rfl (by norm_num)
  have hr : Record.new .ApplicationDataTy TLS_VERSION.1 TLS_VERSION.2 x = .ok ⟨.ApplicationDataTy, 3, 3, x⟩ := Record.new_ok _ _ _ _ (by rw [hR]; exact hxl)
  have h3 : (TlsWriter.writeData .debug .ApplicationDataTy x).run d.writer = (.panic, w') := by
    rw [TlsWriter.writeData, chunks_small hx (by rw [hR]; exact hxl), TlsWriter.writeChunks, St.bind_of_ok (a := ⟨.ApplicationDataTy, 3, 3, x⟩) (s' := d.writer) (by rw [hr]; rfl),
      St.bind_run, g1]
  have h4 : (TlsClient.write .debug x).run d = (.panic, { d with writer := w' }) := by
    rw [TlsClient.write, St.bind_run, writeAll_run, writeApplicationData_run _ _ _ (by rw [h1.encryptor]; rfl), h3]
  refine ⟨S, clear, prot, a, b, protWire, pre, post, hC, by simp only [Call.run, h4], ?_⟩
  simp only [Call.run, h4]
  rw [g2, h2, hC.sent, protectedItems_append]
  simp only [protectedItems, List.append_nil, List.append_assoc, hlast]
  congr 3

/-- C94 below the limit: with fewer than 2^64 records after the handshake (whose Finished has number 0) the numbers on the wire are 1, 2, 3, … and no two records, the
Finished included, share a nonce. The suffix says what is missing: there is no limit, and after 2^64 records the nonces repeat. -/
theorem C94_below_partial (rd : Reader) (wr : Writer) (rng : Rng) (hfa : wr.faults = []) (c : TlsClient) (h : TlsClient.new .release rd wr rng = (.ok (), c)) (calls : List Call)
    (hn : (calls.flatMap Call.records).length < 2 ^ 64) :
    ∃ S clear prot a b protWire pre post, Completed .release rd wr rng c S clear prot a b protWire pre post ∧
      (runCalls .release calls c).2.writer.writer.wire = wr.wire ++ (clientFlight S.random S.point S.keys S.clientVerify).flatten ++
        protectedItems S.keys.clientKey S.keys.clientIv 1 (calls.flatMap Call.records) ∧
      ∀ i j, i ≤ (calls.flatMap Call.records).length → j ≤ (calls.flatMap Call.records).length → recordNonce S.keys.clientIv i = recordNonce S.keys.clientIv j → i = j := by
  obtain ⟨S, clear, prot, a, b, protWire, pre, post, hC, h1, -⟩ := C94_wire rd wr rng hfa c h calls
  obtain ⟨k1, k2, k3, k4⟩ := hC.ready.lengths
  refine ⟨S, clear, prot, a, b, protWire, pre, post, hC, by rw [h1, wrappingItems_below _ _ _ _ (by omega)], fun i j hi hj e => ?_⟩
  rw [← numberOf_recordNonce k3 (show i < 2 ^ 64 by omega), e, numberOf_recordNonce k3 (by omega)]

theorem records_replicate (n : Nat) : ((List.replicate n (Call.write [0])).flatMap Call.records).length = n := by
  have h1 : (Call.write [0]).records.length = 1 := by
    rw [Call.records, List.length_map]
    have : chunks 16384 ([0] : Bytes) = [[0]] := chunks_small (by simp) (by decide)
    rw [this]; rfl
  induction n with
  | zero => rfl
  | succ n ih => rw [List.replicate_succ, List.flatMap_cons, List.length_append, ih, h1]; omega

/-- The hypotheses can be met: a session exists, and 2^64 - 1 writes of one byte make 2^64 - 1 records. -/
example : ∃ rd wr rng c, TlsClient.new .release rd wr rng = (.ok (), c) ∧ wr.faults = [] ∧
    ((List.replicate (2 ^ 64 - 1) (Call.write [0])).flatMap Call.records).length = 2 ^ 64 - 1 := by
  obtain ⟨rd, wr, rng, c, h, hfa, -⟩ := session_exists .release
  exact ⟨rd, wr, rng, c, h, hfa, records_replicate _⟩

example : ∃ rd wr rng c, TlsClient.new .debug rd wr rng = (.ok (), c) ∧ wr.faults = [] ∧
    ((List.replicate (2 ^ 64 - 2) (Call.write [0])).flatMap Call.records).length = 2 ^ 64 - 2 := by
  obtain ⟨rd, wr, rng, c, h, hfa, -⟩ := session_exists .debug
  exact ⟨rd, wr, rng, c, h, hfa, records_replicate _⟩

end Husk
