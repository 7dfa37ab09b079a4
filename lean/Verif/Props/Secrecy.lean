import Verif.Proofs.Blocks
/-! C78: what is sent after the handshake tells nothing about the data but their length. C79: how many bytes are sent. -/

namespace Husk

open Item Spec TlsReader TlsClient Finset

/-! ### Specification -/

/-- What the wire may show of records: types and lengths. -/
def shape (items : List (UInt8 × Bytes)) : List (UInt8 × Nat) := items.map fun r => (r.1, r.2.length)

/-- What the wire may show of a call. -/
def Call.shape : Call → Call
  | .write buf => .write (List.replicate buf.length 0)
  | .read _ | .flush => .flush
  | .close => .close

/-- Everything the client protects: Finished, and what the calls send. -/
def sentItems (verifyData : Bytes) (calls : List Call) : List (UInt8 × Bytes) := (22, finishedBytes verifyData) :: calls.flatMap Call.records

/-- What the client sends in the clear. -/
def clearRecords (clientRandom point : Bytes) : Bytes :=
  recordBytes 22 3 3 (clientHelloBytes clientRandom) ++ recordBytes 22 3 3 (clientKeyExchangeBytes point) ++ recordBytes 20 3 3 [1]

open Classical in
/-- The choices of all blocks under which the records come out as `w`. -/
noncomputable def padsFor (n : Nat) (iv : Bytes) (items : List (UInt8 × Bytes)) (w : Bytes) : Finset (Pad n) := univ.filter fun P => (P.blocks iv).records iv 0 items = w

/-! ### Proofs -/

/-- What to add to the blocks to turn one text into the other. -/
def difference (n : Nat) (items items' : List (UInt8 × Bytes)) : Pad n := fun x =>
  if x.2.1.1 = 0 then 0
  else ((items.getD x.1.1 (0, [])).2.getD (64 * (x.2.1.1 - 1) + x.2.2.1) 0) ^^^ ((items'.getD x.1.1 (0, [])).2.getD (64 * (x.2.1.1 - 1) + x.2.2.1) 0)

def Spec.Pad.xor {n : Nat} (P D : Pad n) : Pad n := fun x => P x ^^^ D x

theorem Spec.Pad.xor_xor {n : Nat} (P D : Pad n) : (P.xor D).xor D = P := by
  funext x
  simp [Pad.xor, UInt8.xor_assoc]

theorem difference_comm (n : Nat) (items items' : List (UInt8 × Bytes)) : difference n items items' = difference n items' items := by
  funext x
  simp only [difference]
  split
  · rfl
  · rw [UInt8.xor_comm]

theorem shape_get {l l' : List (UInt8 × Bytes)} (h : shape l = shape l') {j : Nat} {r r'} (h1 : l[j]? = some r) (h2 : l'[j]? = some r') : r.1 = r'.1 ∧ r.2.length = r'.2.length := by
  have := congrArg (fun z => z[j]?) h
  simpa [shape, h1, h2] using this

/-- One record: the other text under the changed blocks gives the same bytes. -/
theorem record_xor {n : Nat} (hn : n ≤ 2 ^ 64) {iv : Bytes} (hi : iv.length = 12) {items items' : List (UInt8 × Bytes)} (hs : shape items = shape items') (P : Pad n) {j : Nat} (hj : j < n)
    {r r'} (h1 : items[j]? = some r) (h2 : items'[j]? = some r') (hl : r.2.length ≤ 2 ^ 14) :
    (P.blocks iv).record iv j r.1 r.2 = ((P.xor (difference n items items')).blocks iv).record iv j r'.1 r'.2 := by
  obtain ⟨e1, e2⟩ := shape_get hs h1 h2
  have henc : (P.blocks iv).encrypt (recordNonce iv j) r.2 = ((P.xor (difference n items items')).blocks iv).encrypt (recordNonce iv j) r'.2 := by
    apply List.ext_getElem
    · simp [Blocks.encrypt, e2]
    · intro i g1 g2
      simp only [Blocks.encrypt, List.length_mapIdx] at g1 g2
      simp only [Blocks.encrypt, List.getElem_mapIdx]
      rw [Pad.blocks_eq P hi hj hn (by omega) (by omega), Pad.blocks_eq _ hi hj hn (by omega) (by omega)]
      simp only [Pad.xor, difference, List.getD_eq_getElem?_getD, h1, h2, Option.getD_some]
      rw [if_neg (by omega), show 64 * (1 + i / 64 - 1) + i % 64 = i by omega, List.getElem?_eq_getElem g1, List.getElem?_eq_getElem g2]
      simp only [Option.getD_some]
      generalize r.2[i] = a
      generalize r'.2[i] = b
      generalize P _ = p
      rw [UInt8.xor_comm p, ← UInt8.xor_assoc, UInt8.xor_comm a b, ← UInt8.xor_assoc, UInt8.xor_self, UInt8.zero_xor]
  have hkey : (P.blocks iv).oneTimeKey (recordNonce iv j) = ((P.xor (difference n items items')).blocks iv).oneTimeKey (recordNonce iv j) := by
    have : ∀ i < 64, P.blocks iv (recordNonce iv j) 0 i = (P.xor (difference n items items')).blocks iv (recordNonce iv j) 0 i := by
      intro i h
      rw [Pad.blocks_eq P hi hj hn (by omega) h, Pad.blocks_eq _ hi hj hn (by omega) h]
      simp [Pad.xor, difference]
    simp only [Blocks.oneTimeKey, Prod.mk.injEq, List.map_inj_left, List.mem_range]
    exact ⟨fun i h => this i (by omega), fun i h => this _ (by omega)⟩
  simp only [Blocks.record, Blocks.sealMsg, Blocks.tag, ← henc, ← hkey, ← e1, ← e2]

theorem records_xor {n : Nat} (hn : n ≤ 2 ^ 64) {iv : Bytes} (hi : iv.length = 12) {items items' : List (UInt8 × Bytes)} (hs : shape items = shape items') (hc : items.length ≤ n)
    (hl : ∀ r ∈ items, r.2.length ≤ 2 ^ 14) (P : Pad n) :
    (P.blocks iv).records iv 0 items = ((P.xor (difference n items items')).blocks iv).records iv 0 items' := by
  rw [Blocks.records_eq_iff _ _ _ _ _ _ hs]
  intro j r r' h1 h2
  have hj : j < items.length := (List.getElem?_eq_some_iff.mp h1).1
  rw [Nat.zero_add]
  exact record_xor hn hi hs P (by omega) h1 h2 (hl _ (List.mem_of_getElem? h1))

/-- C78: when the blocks are chosen at random, every byte string is as likely to be on the wire for one list of records as for any other with the same types and
lengths: it can be told nothing from it about the contents. -/
theorem C78_perfect_secrecy (n : Nat) (hn : n ≤ 2 ^ 64) (iv : Bytes) (hi : iv.length = 12) (items items' : List (UInt8 × Bytes)) (hs : shape items = shape items') (hc : items.length ≤ n)
    (hl : ∀ r ∈ items, r.2.length ≤ 2 ^ 14) (w : Bytes) : (padsFor n iv items w).card = (padsFor n iv items' w).card := by
  have hc' : items'.length ≤ n := by
    have := congrArg List.length hs
    simp only [shape, List.length_map] at this
    omega
  have hl' : ∀ r ∈ items', r.2.length ≤ 2 ^ 14 := by
    intro r hr
    obtain ⟨j, hj, rfl⟩ := List.getElem_of_mem hr
    have e := congrArg List.length hs
    simp only [shape, List.length_map] at e
    have hj' : j < items.length := by omega
    have := (shape_get hs (List.getElem?_eq_getElem hj') (List.getElem?_eq_getElem hj)).2
    have := hl _ (List.getElem_mem hj')
    omega
  refine card_nbij' (fun P => P.xor (difference n items items')) (fun P => P.xor (difference n items' items)) ?_ ?_ ?_ ?_
  · intro P hP
    simp only [padsFor, coe_filter, mem_univ, true_and, Set.mem_ofPred_eq] at hP ⊢
    rw [← records_xor hn hi hs hc hl]
    exact hP
  · intro P hP
    simp only [padsFor, coe_filter, mem_univ, true_and, Set.mem_ofPred_eq] at hP ⊢
    rw [← records_xor hn hi hs.symm hc' hl']
    exact hP
  · intro P _
    dsimp only
    rw [difference_comm n items' items, Pad.xor_xor]
  · intro P _
    dsimp only
    rw [difference_comm n items' items, Pad.xor_xor]

theorem shape_write (a b : Bytes) (h : a.length = b.length) : shape ((chunks 16384 a).map fun f => (23, f)) = shape ((chunks 16384 b).map fun f => (23, f)) := by
  induction a using chunks_induction (n := 16384) (by decide) generalizing b with
  | nil =>
    have : b = [] := List.length_eq_zero_iff.mp h.symm
    rw [this]
  | step a hne ih =>
    have hb : b ≠ [] := by
      rintro rfl
      exact hne (List.length_eq_zero_iff.mp h)
    rw [chunks_of_ne_nil (by decide) hne, chunks_of_ne_nil (by decide) hb]
    have := ih (b.drop 16384) (by simp [h])
    simp only [shape, List.map_cons, List.length_take, h, List.cons.injEq, true_and] at this ⊢
    exact this

theorem Call.shape_records {a b : Call} (h : a.shape = b.shape) : Husk.shape a.records = Husk.shape b.records := by
  cases a <;> cases b <;> simp only [Call.shape, reduceCtorEq, Call.write.injEq] at h <;> try rfl
  rename_i x y
  exact shape_write x y (by simpa using congrArg List.length h)

theorem shape_calls {calls calls' : List Call} (h : calls.map Call.shape = calls'.map Call.shape) : shape (calls.flatMap Call.records) = shape (calls'.flatMap Call.records) := by
  induction calls generalizing calls' with
  | nil =>
    cases calls' with
    | nil => rfl
    | cons => simp at h
  | cons a l ih =>
    cases calls' with
    | nil => simp at h
    | cons b l' =>
      simp only [List.map_cons, List.cons.injEq] at h
      have h1 := Call.shape_records h.1
      have h2 := ih h.2
      simp only [shape, List.flatMap_cons, List.map_append] at h1 h2 ⊢
      rw [h1, h2]

theorem records_le (calls : List Call) : ∀ r ∈ calls.flatMap Call.records, r.2.length ≤ 2 ^ 14 := by
  intro r hr
  obtain ⟨c, -, hr⟩ := List.mem_flatMap.mp hr
  cases c with
  | write buf =>
    simp only [Call.records, List.mem_map] at hr
    obtain ⟨f, hf, rfl⟩ := hr
    exact chunks_length_le (n := 16384) (by decide) _ f hf
  | close => simp only [Call.records, List.mem_singleton] at hr; subst hr; simp
  | read => simp [Call.records] at hr
  | flush => simp [Call.records] at hr

/-- The same for histories of calls. -/
theorem C78_calls (n : Nat) (hn : n ≤ 2 ^ 64) (iv : Bytes) (hi : iv.length = 12) (verifyData : Bytes) (hv : verifyData.length = 12) (calls calls' : List Call)
    (hs : calls.map Call.shape = calls'.map Call.shape) (hc : (calls.flatMap Call.records).length < n) (w : Bytes) :
    (padsFor n iv (sentItems verifyData calls) w).card = (padsFor n iv (sentItems verifyData calls') w).card := by
  refine C78_perfect_secrecy n hn iv hi _ _ ?_ (by simp only [sentItems, List.length_cons]; omega) ?_ w
  · have := shape_calls hs
    simp only [sentItems, shape, List.map_cons] at this ⊢
    rw [this]
  · intro r hr
    rcases List.mem_cons.mp hr with rfl | hr
    · simp [finishedBytes, handshakeBytes, hv]
    · exact records_le _ r hr

/-- What the client sends, with its protected records as a function of the blocks only: the key occurs nowhere else. -/
theorem C78_wire (m : Mode) (rd : Reader) (wr : Writer) (rng : Rng) (hfa : wr.faults = []) (c : TlsClient) (h : TlsClient.new m rd wr rng = (.ok (), c)) (calls : List Call)
    (hn : (calls.flatMap Call.records).length < 2 ^ 64 - 1) :
    ∃ S clear prot a b protWire pre post, Completed m rd wr rng c S clear prot a b protWire pre post ∧ S.keys.clientIv.length = 12 ∧ S.clientVerify.length = 12 ∧
      (runCalls m calls c).2.writer.writer.wire = wr.wire ++ clearRecords S.random S.point ++
        (Blocks.ofKey S.keys.clientKey).records S.keys.clientIv 0 (sentItems S.clientVerify calls) := by
  obtain ⟨S, clear, prot, a, b, protWire, pre, post, hC, h1, -⟩ := C67_wire m rd wr rng hfa c h calls hn
  refine ⟨S, clear, prot, a, b, protWire, pre, post, hC, hC.ready.lengths.2.2.1, ?_, ?_⟩
  · obtain ⟨l1, l2, -, l3, l4, -⟩ := hC.lengths
    obtain ⟨z1, z2, z3⟩ := hC.sizes
    have hm : S.messages.length < 2 ^ 61 := by
      simp [serverHelloBytes, handshakeBytes] at z1
      simp [Session.messages, Session.server, handshakeMessages, clientHelloBytes, clientKeyExchangeBytes, serverHelloBytes, handshakeBytes, l1, l3]
      omega
    refine tlsPrf_length _ _ _ 12 (by rw [Session.master, tlsMaster_length _ _ _ (by omega) l1 l2]; decide) ?_
    rw [List.length_append, sha256_length _ hm]
    decide
  · rw [h1, Blocks.ofKey_records]
    simp [clientFlight, clearRecords, sentItems, protectedItems]

/-! ### C79 -/

/-- The number of bytes a call puts on the wire: its data, and 21 bytes for each record. -/
def Call.cost : Call → Nat
  | .write buf => buf.length + 21 * ((buf.length + 16383) / 16384)
  | .close => 23
  | _ => 0

theorem records_length (F : Blocks) (iv : Bytes) (k : Nat) (items : List (UInt8 × Bytes)) : (F.records iv k items).length = (items.map fun r => r.2.length + 21).sum := by
  induction items generalizing k with
  | nil => rfl
  | cons r rs ih => rw [Blocks.records, List.length_append, Blocks.record_length, ih, List.map_cons, List.sum_cons]

theorem sum_pieces (fs : List Bytes) : (fs.map fun f => f.length + 21).sum = fs.flatten.length + 21 * fs.length := by
  induction fs with
  | nil => rfl
  | cons f fs ih => rw [List.map_cons, List.sum_cons, ih, List.flatten_cons, List.length_append, List.length_cons]; omega

theorem Call.cost_eq (call : Call) : (call.records.map fun r => r.2.length + 21).sum = call.cost := by
  cases call with
  | write buf =>
    rw [Call.records, List.map_map, show ((fun r : UInt8 × Bytes => r.2.length + 21) ∘ fun f : Bytes => ((23 : UInt8), f)) = fun f => f.length + 21 from rfl, sum_pieces,
      chunks_flatten (by decide), chunks_count (by decide)]
    rfl
  | close => rfl
  | read => rfl
  | flush => rfl

theorem calls_cost (calls : List Call) : ((calls.flatMap Call.records).map fun r => r.2.length + 21).sum = (calls.map Call.cost).sum := by
  induction calls with
  | nil => rfl
  | cons a l ih => rw [List.flatMap_cons, List.map_append, List.sum_append, ih, Call.cost_eq, List.map_cons, List.sum_cons]

theorem C79_wire_length (m : Mode) (rd : Reader) (wr : Writer) (rng : Rng) (hfa : wr.faults = []) (c : TlsClient) (h : TlsClient.new m rd wr rng = (.ok (), c)) (calls : List Call)
    (hn : (calls.flatMap Call.records).length < 2 ^ 64 - 1) :
    (runCalls m calls c).2.writer.writer.wire.length = wr.wire.length + 192 + (calls.map Call.cost).sum := by
  obtain ⟨S, clear, prot, a, b, protWire, pre, post, hC, -, hv, hw⟩ := C78_wire m rd wr rng hfa c h calls hn
  obtain ⟨l1, -, -, l2, -⟩ := hC.lengths
  rw [hw, List.length_append, List.length_append, records_length, sentItems, List.map_cons, List.sum_cons, calls_cost]
  simp [clearRecords, recordBytes_length, clientHelloBytes, clientKeyExchangeBytes, handshakeBytes, finishedBytes, l1, l2, hv]
  omega

/-- The lengths do show: from the bytes on the wire the number of bytes written can be computed. -/
theorem C79_lengths_show (n n' : Nat) (iv iv' verifyData verifyData' : Bytes) (hv : verifyData.length = verifyData'.length) (calls calls' : List Call) (P : Pad n) (P' : Pad n')
    (h : (P.blocks iv).records iv 0 (sentItems verifyData calls) = (P'.blocks iv').records iv' 0 (sentItems verifyData' calls')) :
    (calls.map Call.cost).sum = (calls'.map Call.cost).sum := by
  have := congrArg List.length h
  rw [records_length, records_length, sentItems, sentItems, List.map_cons, List.map_cons, List.sum_cons, List.sum_cons, calls_cost, calls_cost] at this
  simp only [finishedBytes, handshakeBytes, List.length_cons, List.length_append, beBytes_length, hv] at this
  omega

/-- Two different histories of the same shape: the bytes written differ, the number of pads that give a wire does not. -/
example (iv verifyData w : Bytes) (hi : iv.length = 12) (hv : verifyData.length = 12) :
    (padsFor 3 iv (sentItems verifyData [.write [1, 2, 3], .read 4, .close]) w).card = (padsFor 3 iv (sentItems verifyData [.write [7, 8, 9], .flush, .close]) w).card := by
  refine C78_calls 3 (by decide) iv hi verifyData hv _ _ (by simp [Call.shape]) ?_ w
  rw [show ([.write [1, 2, 3], .read 4, .close] : List Call).flatMap Call.records = [(23, [1, 2, 3]), (21, [2, 0])] by
    simp [Call.records, chunks_of_ne_nil (n := 16384) (by decide) (show ([1, 2, 3] : Bytes) ≠ [] by decide)]]
  decide

/-- A connection and a history to which the theorems apply: 192 bytes for the handshake, 24 for three bytes of data, 23 for the alert. -/
example (m : Mode) : ∃ rd wr rng c, TlsClient.new m rd wr rng = (.ok (), c) ∧ wr.faults = [] ∧
    (runCalls m [.write [1, 2, 3], .read 2, .close, .flush, .read 1] c).2.writer.writer.wire.length = wr.wire.length + 239 := by
  obtain ⟨rd, wr, rng, c, h1, h2, -⟩ := session_exists m
  refine ⟨rd, wr, rng, c, h1, h2, ?_⟩
  rw [C79_wire_length m rd wr rng h2 c h1 _ (by
    simp [Call.records, chunks_of_ne_nil (n := 16384) (by decide) (show ([1, 2, 3] : Bytes) ≠ [] by decide)])]
  rfl

end Husk
