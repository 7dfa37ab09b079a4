import Verif.Props.SessionData
import Verif.Proofs.LaterFaults
/-! C68: a transport that fails while a record is written. -/

namespace Husk

open Item Spec TlsReader TlsClient

/-! ### Records written over any transport -/

/-- The writing side under the client's keys, with the next number `k`, over any transport. -/
structure Keyed (m : Mode) (key iv : Bytes) (k : Nat) (w : TlsWriter) : Prop where
  encryptor : w.encryptor = some (.chacha m key)
  iv : w.iv = some iv
  count : w.writeCount.toNat = k

theorem writeRecord_any {m : Mode} {key iv : Bytes} {k : Nat} {w w' : TlsWriter} {x : Res Unit} (hk : key.length = 32) (hi : iv.length = 12) (hw : Keyed m key iv k w)
    (hn : k + 1 < 2 ^ 64) (ty : ContentType) (f : Bytes) (hf : f.length ≤ RECORD_MAX_LEN) (h : (TlsWriter.writeRecord m ⟨ty, 3, 3, f⟩).run w = (x, w')) :
    (x = .ok () ∧ Keyed m key iv (k + 1) w' ∧ w'.writer.wire = w.writer.wire ++ protectedRecord key iv k ty.toU8 f) ∨
    (x = .err .IoFailure ∧ Keyed m key iv k w' ∧ ∃ n, w'.writer.wire = w.writer.wire ++ (protectedRecord key iv k ty.toU8 f).take n) := by
  have hs := sealed_chacha hw.encryptor hk hw.iv hi ty f hf
  rw [hw.count] at hs
  obtain ⟨c, hc⟩ : ∃ c, c = Spec.Aead.sealMsg key (recordNonce iv k) (recordAad k ty.toU8 3 3 f.length) f := ⟨_, rfl⟩
  rw [← hc] at hs
  have hcl : c.length ≤ ENC_RECORD_MAX_LEN := by
    obtain ⟨c', h1, h2⟩ := CrateWriter.sealsShort ⟨m, key, hk, hw.encryptor⟩ |>.seal ⟨ty, 3, 3, f⟩ hf
    rw [hs] at h1
    cases h1
    exact h2
  rw [TlsWriter.writeRecord_run, hs] at h
  simp only at h
  rw [if_neg (by omega)] at h
  obtain ⟨l1, l2, l3, l4⟩ := TlsWriter.logged_same w ⟨ty, 3, 3, f⟩ c
  have hp : protectedRecord key iv k ty.toU8 f = recordBytes ty.toU8 3 3 c := by rw [hc]; rfl
  rw [hp]
  have h1 : (1 : UInt64).toNat = 1 := rfl
  rcases TlsWriter.emit_cases m ⟨ty, 3, 3, f⟩ c (w.logged ⟨ty, 3, 3, f⟩ c) hcl with ⟨w1, g1, g2, _⟩ | ⟨w1, n, g1, g2, _⟩
  · rw [g1, TlsWriter.bump_ok _ _ (by simp only [l3, hw.count]; exact hn)] at h
    simp only [Prod.mk.injEq] at h
    obtain ⟨rfl, rfl⟩ := h
    refine Or.inl ⟨rfl, ⟨l2.trans hw.encryptor, l4.trans hw.iv, ?_⟩, by rw [l1] at g2; exact g2⟩
    simp only [l3, UInt64.toNat_add, hw.count, h1]; omega
  · rw [g1] at h
    simp only [Prod.mk.injEq] at h
    obtain ⟨rfl, rfl⟩ := h
    exact Or.inr ⟨rfl, ⟨l2.trans hw.encryptor, l4.trans hw.iv, by simp only [l3, hw.count]⟩, n, by rw [l1] at g2; exact g2⟩

theorem writeChunks_any {m : Mode} {key iv : Bytes} (hk : key.length = 32) (hi : iv.length = 12) (ty : ContentType) (cs : List Bytes) {k : Nat} {w w' : TlsWriter} {x : Res Unit}
    (hw : Keyed m key iv k w) (hn : k + cs.length < 2 ^ 64) (hcs : ∀ c ∈ cs, c.length ≤ RECORD_MAX_LEN) (h : (TlsWriter.writeChunks m ty cs).run w = (x, w')) :
    (x = .ok () ∧ Keyed m key iv (k + cs.length) w' ∧ w'.writer.wire = w.writer.wire ++ protectedItems key iv k (cs.map fun f => (ty.toU8, f))) ∨
    (x = .err .IoFailure ∧ ∃ n, w'.writer.wire = w.writer.wire ++ (protectedItems key iv k (cs.map fun f => (ty.toU8, f))).take n) := by
  induction cs generalizing k w with
  | nil =>
    simp only [TlsWriter.writeChunks, St.pure_run, Prod.mk.injEq] at h
    obtain ⟨rfl, rfl⟩ := h
    exact Or.inl ⟨rfl, hw, (List.append_nil _).symm⟩
  | cons c cs ih =>
    have hr : Record.new ty TLS_VERSION.1 TLS_VERSION.2 c = .ok ⟨ty, TLS_VERSION.1, TLS_VERSION.2, c⟩ := Record.new_ok _ _ _ _ (hcs c (by simp))
    rw [TlsWriter.writeChunks, St.bind_of_ok (a := ⟨ty, TLS_VERSION.1, TLS_VERSION.2, c⟩) (s' := w) (by rw [hr]; rfl), St.bind_run] at h
    rcases hwr : (TlsWriter.writeRecord m ⟨ty, TLS_VERSION.1, TLS_VERSION.2, c⟩).run w with ⟨y, w1⟩
    rw [hwr] at h
    simp only [List.length_cons] at hn
    simp only [List.map_cons, protectedItems, List.length_cons]
    rcases writeRecord_any hk hi hw (by omega) ty c (hcs c (by simp)) hwr with ⟨rfl, h1, h2⟩ | ⟨rfl, h1, n, h2⟩
    · simp only at h
      rcases ih h1 (by omega) (fun c hc => hcs c (List.mem_cons_of_mem _ hc)) h with ⟨rfl, i1, i2⟩ | ⟨rfl, n, i2⟩
      · exact Or.inl ⟨rfl, by rwa [Nat.add_assoc, Nat.add_comm 1] at i1, by rw [i2, h2, List.append_assoc]⟩
      · refine Or.inr ⟨rfl, (protectedRecord key iv k ty.toU8 c).length + n, ?_⟩
        rw [i2, h2, List.take_length_add_append, List.append_assoc]
    · simp only [Prod.mk.injEq] at h
      obtain ⟨rfl, rfl⟩ := h
      refine Or.inr ⟨rfl, min n (protectedRecord key iv k ty.toU8 c).length, ?_⟩
      rw [h2, List.take_append_of_le_length (by omega), ← List.take_eq_take_min]

/-- One call over any transport: it succeeds with all its records on the wire, or fails with an initial part of them. -/
theorem Call.run_any {m : Mode} {key iv : Bytes} {k : Nat} {c : TlsClient} (hk : key.length = 32) (hi : iv.length = 12) (hw : Keyed m key iv k c.writer) (call : Call)
    (hn : k + call.records.length < 2 ^ 64) :
    (Keyed m key iv (k + call.records.length) (call.run m c).2.writer ∧
      (call.run m c).2.writer.writer.wire = c.writer.writer.wire ++ protectedItems key iv k call.records ∧
      ∀ g, call.good = some g → (call.run m c).1 = g) ∨
    ((∃ g, call.good = some g ∧ (call.run m c).1 ≠ g) ∧
      ∃ n, (call.run m c).2.writer.writer.wire = c.writer.writer.wire ++ (protectedItems key iv k call.records).take n) := by
  cases call with
  | read len =>
    obtain ⟨f, hf⟩ := read_only m len
    simp only [Call.run, hf, Call.records, protectedItems, List.append_nil, List.length_nil, Nat.add_zero, Call.good]
    exact Or.inl ⟨hw, trivial, by simp⟩
  | flush => exact Or.inl ⟨hw, (List.append_nil _).symm, fun r h => Option.some.inj h⟩
  | write buf =>
    rw [Call.records, List.length_map] at hn ⊢
    rcases h : (TlsWriter.writeData m .ApplicationDataTy buf).run c.writer with ⟨x, w'⟩
    rcases writeChunks_any hk hi .ApplicationDataTy _ hw hn (TlsWriter.chunk_bound buf) h with ⟨rfl, h2, h3⟩ | ⟨rfl, n, h3⟩
    · left
      have h4 : (TlsClient.write m buf).run c = (.ok buf.length, { c with writer := w' }) := by
        rw [TlsClient.write, St.bind_run, writeAll_run, writeApplicationData_run _ _ _ (by rw [hw.encryptor]; rfl), h]
        rfl
      simp only [Call.run, h4]
      exact ⟨h2, h3, fun r h => Option.some.inj h⟩
    · right
      have h4 : (TlsClient.write m buf).run c = (.err .IoFailure, { c with writer := w' }) := by
        rw [TlsClient.write, St.bind_run, writeAll_run, writeApplicationData_run _ _ _ (by rw [hw.encryptor]; rfl), h]
        rfl
      simp only [Call.run, h4]
      exact ⟨⟨_, rfl, by simp⟩, n, h3⟩
  | close =>
    rcases h : (TlsWriter.writeData m .AlertTy [2, 0]).run c.writer with ⟨x, w'⟩
    have h4 : (TlsClient.close m).run c = (x, { c with writer := w' }) := by
      have : (TlsWriter.writeAlert m { level := .fatal, description := .close_notify }).run c.writer = (x, w') := by
        rw [writeAlert_run]; exact h
      simp only [TlsClient.close, onWriter, St.zoom_run, this]
    rcases writeChunks_any hk hi .AlertTy _ hw hn (TlsWriter.chunk_bound [2, 0]) h with ⟨rfl, h2, h3⟩ | ⟨rfl, n, h3⟩
    · simp only [Call.run, h4]
      exact Or.inl ⟨h2, h3, fun r h => Option.some.inj h⟩
    · simp only [Call.run, h4]
      exact Or.inr ⟨⟨_, rfl, by simp⟩, n, h3⟩

theorem runCalls_append (m : Mode) (a b : List Call) (c : TlsClient) :
    runCalls m (a ++ b) c = ((runCalls m a c).1 ++ (runCalls m b (runCalls m a c).2).1, (runCalls m b (runCalls m a c).2).2) := by
  induction a generalizing c with
  | nil => rfl
  | cons x a ih => simp only [List.cons_append, runCalls, ih]

theorem runCalls_any {m : Mode} {key iv : Bytes} (hk : key.length = 32) (hi : iv.length = 12) (calls : List Call) {k : Nat} {c : TlsClient} (hw : Keyed m key iv k c.writer)
    (hn : k + (calls.flatMap Call.records).length < 2 ^ 64)
    (hg : List.Forall₂ (fun (call : Call) r => ∀ g, call.good = some g → r = g) calls (runCalls m calls c).1) :
    Keyed m key iv (k + (calls.flatMap Call.records).length) (runCalls m calls c).2.writer ∧
    (runCalls m calls c).2.writer.writer.wire = c.writer.writer.wire ++ protectedItems key iv k (calls.flatMap Call.records) := by
  induction calls generalizing k c with
  | nil => exact ⟨hw, (List.append_nil _).symm⟩
  | cons call calls ih =>
    simp only [List.flatMap_cons, List.length_append] at hn ⊢
    obtain ⟨g1, g2⟩ := List.forall₂_cons.mp hg
    rcases Call.run_any hk hi hw call (by omega) with ⟨h1, h2, _⟩ | ⟨⟨g, h1, h2⟩, _⟩
    · obtain ⟨i1, i2⟩ := ih h1 (by omega) g2
      refine ⟨by rw [← Nat.add_assoc]; exact i1, ?_⟩
      show (runCalls m calls (call.run m c).2).2.writer.writer.wire = _
      rw [i2, h2, protectedItems_append, List.append_assoc]
    · exact absurd (g1 g h1) h2

/-- C68, for an application that stops writing after the first error: over any transport, after every successful handshake, the wire holds an initial part of the
protected records of the calls, in order and numbered from 1. So no number is used for two different records. (Without this restriction the property is false,
`C68_number_reused`.) -/
theorem C68_stop_partial (m : Mode) (rd : Reader) (wr : Writer) (rng : Rng) (c : TlsClient) (h : TlsClient.new m rd wr rng = (.ok (), c)) (calls : List Call) (last : Call)
    (hn : ((calls ++ [last]).flatMap Call.records).length < 2 ^ 64 - 1)
    (hg : List.Forall₂ (fun (call : Call) r => ∀ g, call.good = some g → r = g) calls (runCalls m calls c).1) :
    ∃ S clear prot a b protWire pre post, Completed m rd wr rng c S clear prot a b protWire pre post ∧
      ∃ n, (protectedItems S.keys.clientKey S.keys.clientIv 1 (calls.flatMap Call.records)).length ≤ n ∧
      (runCalls m (calls ++ [last]) c).2.writer.writer.wire = wr.wire ++ (clientFlight S.random S.point S.keys S.clientVerify).flatten ++
        (protectedItems S.keys.clientKey S.keys.clientIv 1 ((calls ++ [last]).flatMap Call.records)).take n := by
  obtain ⟨S, clear, prot, a, b, protWire, pre, post, hC⟩ := C27_flight_partial m rd wr rng c h
  obtain ⟨k1, k2, k3, k4⟩ := hC.ready.lengths
  have hw : Keyed m S.keys.clientKey S.keys.clientIv 1 c.writer := ⟨hC.ready.encryptor, hC.ready.writerIv, by rw [hC.ready.writeCount]; rfl⟩
  simp only [List.flatMap_append, List.flatMap_cons, List.flatMap_nil, List.append_nil, List.length_append] at hn ⊢
  obtain ⟨h1, h2⟩ := runCalls_any k1 k3 calls hw (by omega) hg
  refine ⟨S, clear, prot, a, b, protWire, pre, post, hC, ?_⟩
  rw [runCalls_append, protectedItems_append]
  simp only [runCalls]
  rcases Call.run_any k1 k3 h1 last (by omega) with ⟨_, g2, _⟩ | ⟨_, n, g2⟩
  · exact ⟨_, Nat.le_add_right _ (protectedItems S.keys.clientKey S.keys.clientIv (1 + (calls.flatMap Call.records).length) last.records).length, by
      rw [g2, h2, hC.sent, ← List.length_append, List.take_length]; simp only [List.append_assoc]⟩
  · exact ⟨_, Nat.le_add_right _ n, by
      rw [g2, h2, hC.sent, List.take_length_add_append]; simp only [List.append_assoc]⟩

/-! ### The property is false -/

/-- The fifth `write_all` of a record (its fragment) fails after `j` bytes. -/
theorem emit_fails (m : Mode) (record : Record) (c : Bytes) (hc : c ≠ []) (hl : c.length ≤ ENC_RECORD_MAX_LEN) (s : TlsWriter) (j : Nat) (hf : s.writer.faults = [none, none, none, none, some j]) :
    (TlsWriter.emit m record c).run s = (.err .IoFailure, { s with
      writer := { wire := s.writer.wire ++ ([record.contentType.toU8, record.verMajor, record.verMinor] ++ beBytes 2 c.length ++ c.take j), faults := [] } }) := by
  have hE : ENC_RECORD_MAX_LEN = 18432 := rfl
  have e : TlsWriter.emit m record c = (TlsWriter.io (Writer.writeAll [record.contentType.toU8]) >>= fun _ => TlsWriter.io (Writer.writeAll [record.verMajor]) >>= fun _ =>
      TlsWriter.io (Writer.writeAll [record.verMinor]) >>= fun _ => TlsWriter.io (Writer.writeAll (beBytes 2 c.length)) >>= fun _ =>
      TlsWriter.io (Writer.writeAll c) >>= fun _ => TlsWriter.bump m) := by
    rw [← Writer.transmute_u8, ← Writer.transmute_u8, ← Writer.transmute_u8, ← Writer.transmute_be16 c.length (by omega)]
    rfl
  have step : ∀ (b : Bytes) (fs : List (Option Nat)) (s : TlsWriter), b ≠ [] → s.writer.faults = none :: fs →
      (TlsWriter.io (Writer.writeAll b)).run s = (.ok (), { s with writer := { wire := s.writer.wire ++ b, faults := fs } }) := by
    intro b fs s hb hf
    exact TlsWriter.io_ok (by simp [Writer.writeAll, hb, hf])
  have last : ∀ (s : TlsWriter), s.writer.faults = [some j] →
      (TlsWriter.io (Writer.writeAll c)).run s = (.err .IoFailure, { s with writer := { wire := s.writer.wire ++ c.take j, faults := [] } }) := by
    intro s hf
    exact TlsWriter.io_err (by simp [Writer.writeAll, hc, hf])
  have hb2 : beBytes 2 c.length ≠ [] := by intro h; have := congrArg List.length h; simp at this
  rw [e, St.bind_of_ok (step _ _ _ (by simp) hf), St.bind_of_ok (step _ _ _ (by simp) rfl), St.bind_of_ok (step _ _ _ (by simp) rfl), St.bind_of_ok (step _ _ _ hb2 rfl),
    St.bind_of_err (last _ rfl)]
  simp

/-- Two messages under the same key and nonce: the xor of the ciphertexts is the xor of the messages. -/
theorem encrypt_xor (key : Bytes) (ctr : Nat) (nonce x y : Bytes) :
    List.zipWith (· ^^^ ·) (Spec.ChaCha20.encrypt key ctr nonce x) (Spec.ChaCha20.encrypt key ctr nonce y) = List.zipWith (· ^^^ ·) x y := by
  apply List.ext_getElem
  · simp [Spec.ChaCha20.encrypt]
  · intro i h1 h2
    simp only [List.getElem_zipWith, Spec.ChaCha20.encrypt, List.getElem_mapIdx]
    generalize Spec.ChaCha20.keystream key ctr nonce i = z
    have hy : i < y.length := by rw [List.length_zipWith] at h2; omega
    rw [UInt8.xor_comm y[i] z, UInt8.xor_assoc, ← UInt8.xor_assoc z z, UInt8.xor_self, UInt8.zero_xor]

/-- The fragment of a record fails to go out after `j` bytes, and the next record is written. -/
theorem fails_then_writes {m : Mode} {key iv : Bytes} {k : Nat} {c : TlsClient} (hk : key.length = 32) (hi : iv.length = 12) (hw : Keyed m key iv k c.writer) (hn : k + 1 < 2 ^ 64)
    (x y : Bytes) (hx : x ≠ []) (hy : y ≠ []) (hxl : x.length ≤ 2 ^ 14) (hyl : y.length ≤ 2 ^ 14) (j : Nat) (hf : c.writer.writer.faults = [none, none, none, none, some j]) :
    (runCalls m [.write x, .write y] c).1 = [.write (.err .IoFailure), .write (.ok y.length)] ∧
    (runCalls m [.write x, .write y] c).2.writer.writer.wire = c.writer.writer.wire ++ ((protectedRecord key iv k 23 x).take (5 + j) ++ protectedRecord key iv k 23 y) := by
  have hR : RECORD_MAX_LEN = 2 ^ 14 := rfl
  have hs := sealed_chacha hw.encryptor hk hw.iv hi .ApplicationDataTy x (by omega)
  rw [hw.count] at hs
  obtain ⟨ct, hct⟩ : ∃ ct, ct = Spec.Aead.sealMsg key (recordNonce iv k) (recordAad k ContentType.ApplicationDataTy.toU8 3 3 x.length) x := ⟨_, rfl⟩
  rw [← hct] at hs
  have hp : protectedRecord key iv k 23 x = recordBytes 23 3 3 ct := by rw [hct]; rfl
  have hcl : ct.length ≤ ENC_RECORD_MAX_LEN := by
    obtain ⟨c', h1, h2⟩ := CrateWriter.sealsShort ⟨m, key, hk, hw.encryptor⟩ |>.seal ⟨.ApplicationDataTy, 3, 3, x⟩ (by rw [hR]; exact hxl)
    rw [hs] at h1
    cases h1
    exact h2
  have hc0 : ct ≠ [] := by
    intro h0
    rw [h0, Spec.Aead.sealMsg] at hct
    have := congrArg List.length hct
    simp only [List.length_nil, List.length_append, Spec.ChaCha20.encrypt, List.length_mapIdx] at this
    exact hx (List.length_eq_zero_iff.mp (by omega))
  obtain ⟨l1, l2, l3, l4⟩ := TlsWriter.logged_same c.writer ⟨.ApplicationDataTy, 3, 3, x⟩ ct
  have hr : Record.new .ApplicationDataTy TLS_VERSION.1 TLS_VERSION.2 x = .ok ⟨.ApplicationDataTy, 3, 3, x⟩ := Record.new_ok _ _ _ _ (by rw [hR]; exact hxl)
  obtain ⟨w, hw1⟩ : ∃ w : TlsWriter, w = { TlsWriter.logged c.writer ⟨.ApplicationDataTy, 3, 3, x⟩ ct with
      writer := { wire := c.writer.writer.wire ++ ([23, 3, 3] ++ beBytes 2 ct.length ++ ct.take j), faults := [] } } := ⟨_, rfl⟩
  have h1 : (TlsWriter.writeData m .ApplicationDataTy x).run c.writer = (.err .IoFailure, w) := by
    rw [TlsWriter.writeData, chunks_small hx (by rw [hR]; exact hxl), TlsWriter.writeChunks, St.bind_of_ok (a := ⟨.ApplicationDataTy, 3, 3, x⟩) (s' := c.writer) (by rw [hr]; rfl)]
    refine St.bind_of_err ?_
    rw [TlsWriter.writeRecord_run, hs]
    simp only
    rw [if_neg (by omega), emit_fails _ _ _ hc0 hcl _ j (by rw [l1]; exact hf), hw1, l1]
    rfl
  have h2 : (TlsClient.write m x).run c = (.err .IoFailure, { c with writer := w }) := by
    rw [TlsClient.write, St.bind_run, writeAll_run, writeApplicationData_run _ _ _ (by rw [hw.encryptor]; rfl), h1]
    rfl
  have hw2 : Writes m key iv k w := by
    subst hw1
    exact ⟨l2.trans hw.encryptor, l4.trans hw.iv, by show (TlsWriter.logged _ _ _).writeCount.toNat = _; rw [l3, hw.count], rfl⟩
  have hch : chunks 16384 y = [y] := chunks_small hy (by rw [hR]; exact hyl)
  obtain ⟨w', h3, -, h4⟩ := writeData_protected hk hi hw2 .ApplicationDataTy y (by rw [hch]; exact hn)
  rw [hch] at h4
  have h5 : (TlsClient.write m y).run { c with writer := w } = (.ok y.length, { c with writer := w' }) := by
    rw [TlsClient.write, St.bind_run, writeAll_run, writeApplicationData_run _ _ _ (by rw [hw2.encryptor]; rfl), h3]
    rfl
  simp only [runCalls, Call.run, h2, h5, true_and]
  rw [h4, hw1, hp]
  simp only [List.map_cons, List.map_nil, protectedItems, List.append_nil, List.append_assoc]
  congr 1
  rw [recordBytes]
  have hb : (([23, 3, 3] : Bytes) ++ beBytes 2 ct.length).length = 5 := by simp
  have : ([23, 3, 3] : Bytes) ++ beBytes 2 ct.length ++ ct = ([23, 3, 3] ++ beBytes 2 ct.length) ++ ct := rfl
  rw [this, ← hb, List.take_length_add_append]
  simp only [List.append_assoc]
  rfl

/-- C68 is false: for every successful handshake there is a transport, equal up to the end of the handshake, such that a write of `x` fails and a following write of
`y` succeeds, and the wire then holds the header and the first `j` bytes of the fragment of the record with number 1 and content `x`, followed by the record with
number 1 and content `y`. Key and nonce are the same, so the xor of what is on the wire is the xor of the plaintexts. -/
theorem C68_number_reused (m : Mode) (rd : Reader) (wr : Writer) (rng : Rng) (hfa : wr.faults = []) (c : TlsClient) (h : TlsClient.new m rd wr rng = (.ok (), c))
    (x y : Bytes) (hx : x ≠ []) (hy : y ≠ []) (hxl : x.length ≤ 2 ^ 14) (hyl : y.length ≤ 2 ^ 14) (j : Nat) :
    ∃ S clear prot a b protWire pre post, Completed m rd wr rng c S clear prot a b protWire pre post ∧
    ∃ wr' c', wr'.wire = wr.wire ∧ TlsClient.new m rd wr' rng = (.ok (), c') ∧
      (runCalls m [.write x, .write y] c').1 = [.write (.err .IoFailure), .write (.ok y.length)] ∧
      (runCalls m [.write x, .write y] c').2.writer.writer.wire = wr.wire ++ (clientFlight S.random S.point S.keys S.clientVerify).flatten ++
        ((protectedRecord S.keys.clientKey S.keys.clientIv 1 23 x).take (5 + j) ++ protectedRecord S.keys.clientKey S.keys.clientIv 1 23 y) ∧
      List.zipWith (· ^^^ ·) (((protectedRecord S.keys.clientKey S.keys.clientIv 1 23 x).drop 5).take (min j x.length))
        (((protectedRecord S.keys.clientKey S.keys.clientIv 1 23 y).drop 5).take y.length) = List.zipWith (· ^^^ ·) (x.take j) y := by
  obtain ⟨S, clear, prot, a, b, protWire, pre, post, hC⟩ := C27_flight_partial m rd wr rng c h
  obtain ⟨k1, k2, k3, k4⟩ := hC.ready.lengths
  obtain ⟨K, hK⟩ := new_later_faults m rd wr rng hfa c h
  have hx5 : ∀ z : Bytes, (protectedRecord S.keys.clientKey S.keys.clientIv 1 23 z).drop 5 =
      Spec.Aead.sealMsg S.keys.clientKey (recordNonce S.keys.clientIv 1) (recordAad 1 23 3 3 z.length) z := by
    intro z
    rw [protectedRecord, recordBytes, List.drop_left' (by simp)]
  have hz := hK [none, none, none, none, some j]
  obtain ⟨g1, g2⟩ := fails_then_writes (m := m) (k := 1)
    (c := { c with writer := { c.writer with writer := { c.writer.writer with faults := [none, none, none, none, some j] } } }) k1 k3
    ⟨hC.ready.encryptor, hC.ready.writerIv, by rw [hC.ready.writeCount]; rfl⟩ (by omega) x y hx hy hxl hyl j rfl
  refine ⟨S, clear, prot, a, b, protWire, pre, post, hC, { wr with faults := List.replicate K none ++ [none, none, none, none, some j] }, _, rfl, hz, g1, ?_, ?_⟩
  · rw [g2, ← hC.sent]
  · have htake : ∀ (z : Bytes) (n : Nat), n ≤ z.length → ((protectedRecord S.keys.clientKey S.keys.clientIv 1 23 z).drop 5).take n =
        Spec.ChaCha20.encrypt S.keys.clientKey 1 (recordNonce S.keys.clientIv 1) (z.take n) := by
      intro z n hn
      rw [hx5, Spec.Aead.sealMsg]
      rw [List.take_append_of_le_length (by simpa [Spec.ChaCha20.encrypt] using hn)]
      apply List.ext_getElem
      · simp [Spec.ChaCha20.encrypt]
      · intro i _ _
        simp [Spec.ChaCha20.encrypt]
    rw [htake x _ (by omega), htake y _ (Nat.le_refl _), encrypt_xor, List.take_length, ← List.take_eq_take_min]

/-- A handshake after which the two writes share a keystream: six of the bytes of the first one leak. -/
example (m : Mode) : ∃ rd wr rng c, TlsClient.new m rd wr rng = (.ok (), c) ∧
    (runCalls m [.write (List.replicate 10 1), .write [1, 2, 3]] c).1 = [.write (.err .IoFailure), .write (.ok 3)] := by
  obtain ⟨rd, wr, rng, c, h, hfa, -⟩ := session_exists m
  obtain ⟨_, _, _, _, _, _, _, _, _, wr', c', _, h1, h2, _⟩ := C68_number_reused m rd wr rng hfa c h (List.replicate 10 1) [1, 2, 3] (by decide) (by decide) (by decide) (by decide) 6
  exact ⟨rd, wr', rng, c', h1, h2⟩

end Husk
