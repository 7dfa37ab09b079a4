import Verif.Proofs.TraceTlsSame
import Verif.Props.SessionData
import Verif.Props.Forgery
/-! # C104: what the calls of an established connection show through timing and caches

An execution is observed as in C84–C88 (`Verif/Base/Trace`), and through the calls on the transport: the length of every buffer handed over, how much was moved, and failures.
Two connections are compared that agree on what is public (`TlsClient.Twin`): the record numbers, the lengths of what the server sent, the pieces in which the transport delivers and the
fate of the coming writes. The keys, the IVs, the data the server sent and the data written are different. -/

namespace Husk

open TSt
open Int256 (SameLen)
open Spec (Sym ofBytes recordBytes recordNonce recordAad)

/-- A call with its observations. -/
def Call.runT (m : Mode) (wk rk : Bytes) (c : TlsClient) : Call → List Obs × CallResult × TlsClient
  | .read len => let r := (TlsClient.readT m (some rk) len).run c; (r.1, .read r.2.1, r.2.2)
  | .write buf => let r := (TlsClient.writeT m (some wk) buf).run c; (r.1, .write r.2.1, r.2.2)
  | .flush => ([], .done (.ok ()), c)
  | .close => let r := (TlsClient.closeT m (some wk)).run c; (r.1, .done r.2.1, r.2.2)

/-- A history of calls with the observations of each call. -/
def runCallsT (m : Mode) (wk rk : Bytes) : List Call → TlsClient → List (List Obs) × List CallResult × TlsClient
  | [], c => ([], [], c)
  | call :: calls, c =>
    let r := call.runT m wk rk c
    let rs := runCallsT m wk rk calls r.2.2
    (r.1 :: rs.1, r.2.1 :: rs.2.1, rs.2.2)

/-- Calls that agree on what is public: of the data written, the length. -/
def Call.SamePublic : Call → Call → Prop
  | .read n, .read n' => n = n'
  | .write b, .write b' => b.length = b'.length
  | .flush, .flush => True
  | .close, .close => True
  | _, _ => False

/-- Histories that agree on what is public. -/
inductive SameCalls : List Call → List Call → Prop
  | nil : SameCalls [] []
  | cons {a b as bs} : Call.SamePublic a b → SameCalls as bs → SameCalls (a :: as) (b :: bs)

/-- Results of the same kind: reads deliver the same number of bytes, writes report the same, errors are the same. -/
def CallResult.SamePublic : CallResult → CallResult → Prop
  | .read r, .read r' => SameOutcome (fun a b : Bytes => a.length = b.length) r r'
  | .write r, .write r' => SameOutcome (· = ·) r r'
  | .done r, .done r' => SameOutcome (fun _ _ => True) r r'
  | _, _ => False

/-- Lists of results. -/
inductive SameResults : List CallResult → List CallResult → Prop
  | nil : SameResults [] []
  | cons {a b as bs} : CallResult.SamePublic a b → SameResults as bs → SameResults (a :: as) (b :: bs)

section
variable {m : Mode} {wk rk wk' rk' : Bytes} {c c' : TlsClient}

/-- C104, writing: `write` shows the length of the data. -/
theorem C104_write (h : TlsClient.Twin m wk rk wk' rk' c c') (data data' : Bytes) (hl : data.length = data'.length) :
    ((TlsClient.writeT m (some wk) data).run c).1 = ((TlsClient.writeT m (some wk') data').run c').1 ∧
      SameOutcome (· = ·) ((TlsClient.writeT m (some wk) data).run c).2.1 ((TlsClient.writeT m (some wk') data').run c').2.1 ∧
      TlsClient.Twin m wk rk wk' rk' ((TlsClient.writeT m (some wk) data).run c).2.2 ((TlsClient.writeT m (some wk') data').run c').2.2 :=
  TlsClient.writeT_alike hl c c' h

/-- C104, reading: `read` shows the lengths of the records and of what they carry. -/
theorem C104_read (h : TlsClient.Twin m wk rk wk' rk' c c') (n : Nat) :
    ((TlsClient.readT m (some rk) n).run c).1 = ((TlsClient.readT m (some rk') n).run c').1 ∧
      SameOutcome (fun a b : Bytes => a.length = b.length) ((TlsClient.readT m (some rk) n).run c).2.1 ((TlsClient.readT m (some rk') n).run c').2.1 ∧
      TlsClient.Twin m wk rk wk' rk' ((TlsClient.readT m (some rk) n).run c).2.2 ((TlsClient.readT m (some rk') n).run c').2.2 :=
  TlsClient.readT_alike n c c' h

/-- C104, closing. -/
theorem C104_close (h : TlsClient.Twin m wk rk wk' rk' c c') :
    ((TlsClient.closeT m (some wk)).run c).1 = ((TlsClient.closeT m (some wk')).run c').1 ∧
      SameOutcome (fun _ _ => True) ((TlsClient.closeT m (some wk)).run c).2.1 ((TlsClient.closeT m (some wk')).run c').2.1 ∧
      TlsClient.Twin m wk rk wk' rk' ((TlsClient.closeT m (some wk)).run c).2.2 ((TlsClient.closeT m (some wk')).run c').2.2 :=
  TlsClient.closeT_alike c c' h

/-- C104: any history of calls. Whoever sees the branches, the array positions, the buffer lengths and the calls on the transport learns the lengths, in both build modes and whatever
fails on the writing side; nothing depends on the keys, the IVs or the contents. -/
theorem C104_calls_constant_time (calls calls' : List Call) (hcalls : SameCalls calls calls') (h : TlsClient.Twin m wk rk wk' rk' c c') :
    (runCallsT m wk rk calls c).1 = (runCallsT m wk' rk' calls' c').1 ∧ SameResults (runCallsT m wk rk calls c).2.1 (runCallsT m wk' rk' calls' c').2.1 := by
  induction hcalls generalizing c c' with
  | nil => exact ⟨rfl, .nil⟩
  | @cons a b as bs hab hs ih =>
    have key : (a.runT m wk rk c).1 = (b.runT m wk' rk' c').1 ∧ CallResult.SamePublic (a.runT m wk rk c).2.1 (b.runT m wk' rk' c').2.1 ∧
        TlsClient.Twin m wk rk wk' rk' (a.runT m wk rk c).2.2 (b.runT m wk' rk' c').2.2 := by
      cases a <;> cases b <;> first | exact absurd hab id | skip
      · rename_i n n'
        have hn : n = n' := hab
        subst hn
        exact C104_read h n
      · exact C104_write h _ _ hab
      · exact ⟨rfl, trivial, h⟩
      · exact C104_close h
    obtain ⟨i1, i2⟩ := ih key.2.2
    refine ⟨?_, .cons key.2.1 i2⟩
    show _ :: _ = _ :: _
    rw [key.1, i1]

end

/-- The calls with observations have the results of the model. -/
theorem C104_same_result {m : Mode} {wk rk : Bytes} (calls : List Call) {c : TlsClient} (hw : c.writer.encryptor = some (.chacha m wk)) (hr : c.reader.decryptor = some (.chacha m rk)) :
    (runCallsT m wk rk calls c).2 = runCalls m calls c := by
  have key : ∀ c, TlsClient.HasKeys m (some wk) (some rk) c → (runCallsT m wk rk calls c).2 = runCalls m calls c := by
    induction calls with
    | nil => exact fun _ _ => rfl
    | cons call calls ih =>
      intro c hc
      have one : (call.runT m wk rk c).2 = call.run m c ∧ TlsClient.HasKeys m (some wk) (some rk) (call.run m c).2 := by
        cases call with
        | read n =>
          obtain ⟨e, h⟩ := TlsClient.readT_agrees n c hc
          refine ⟨?_, h⟩
          show (CallResult.read _, _) = (CallResult.read _, _)
          rw [e]
        | write d =>
          obtain ⟨e, h⟩ := TlsClient.writeT_agrees d c hc
          refine ⟨?_, h⟩
          show (CallResult.write _, _) = (CallResult.write _, _)
          rw [e]
        | flush => exact ⟨rfl, hc⟩
        | close =>
          obtain ⟨e, h⟩ := TlsClient.closeT_agrees c hc
          refine ⟨?_, h⟩
          show (CallResult.done _, _) = (CallResult.done _, _)
          rw [e]
      have i := ih _ one.2
      show ((call.runT m wk rk c).2.1 :: (runCallsT m wk rk calls (call.runT m wk rk c).2.2).2.1, (runCallsT m wk rk calls (call.runT m wk rk c).2.2).2.2) =
        ((call.run m c).1 :: (runCalls m calls (call.run m c).2).1, (runCalls m calls (call.run m c).2).2)
      rw [one.1, i]
  exact key c ⟨hw, hr⟩

/-- What two connections are after their handshakes, if nothing followed the Finished messages in their records, both servers used as many records for Finished, and from then on send
application data in records of the same lengths (and then end), delivered in pieces of the same lengths. -/
theorem C104_established {m : Mode} {rd rd' : Reader} {wr wr' : Writer} {rng rng' : Rng} {c c' : TlsClient} {S S' : Session} {clear clear' prot prot' : List (UInt8 × UInt8 × Bytes)}
    {a b a' b' : UInt8} {pw pw' pre pre' : Bytes} (h : Completed m rd wr rng c S clear prot a b pw pre []) (h' : Completed m rd' wr' rng' c' S' clear' prot' a' b' pw' pre' [])
    (hn : prot.length = prot'.length) (rs rs' : List (UInt8 × UInt8 × Bytes)) (w w' : Bytes) (hs : ProtectedStream S.keys.serverKey S.keys.serverIv 23 prot.length rs w)
    (hs' : ProtectedStream S'.keys.serverKey S'.keys.serverIv 23 prot.length rs' w') (hpub : rs.map publicPart = rs'.map publicPart) (hfit : ∀ r ∈ rs, r.2.2.length ≤ 2 ^ 14)
    (hcnt : prot.length + rs.length < 2 ^ 64) (hst : c.reader.reader.stream = ofBytes w) (hst' : c'.reader.reader.stream = ofBytes w')
    (hr : Reader.Twin c.reader.reader c'.reader.reader) (hw : Writer.Twin c.writer.writer c'.writer.writer) :
    TlsClient.Twin m S.keys.clientKey S.keys.serverKey S'.keys.clientKey S'.keys.serverKey c c' := by
  obtain ⟨k1, k2, k3, k4⟩ := h.ready.lengths
  obtain ⟨k1', k2', k3', k4'⟩ := h'.ready.lengths
  have hc : c.reader.readCount.toNat = prot.length := h.ready.readCount.trans (Nat.mod_eq_of_lt (by omega))
  have hc' : c'.reader.readCount.toNat = prot.length := h'.ready.readCount.trans ((Nat.mod_eq_of_lt (by omega)).trans hn.symm)
  refine { writer := ?_, reader := ?_, buf := by rw [h.ready.buf, h'.ready.buf] }
  · exact { key := h.ready.encryptor, key' := h'.ready.encryptor, len := k1, len' := k1', iv := ⟨_, _, h.ready.writerIv, h'.ready.writerIv, k3, k3'⟩, count := by rw [h.ready.writeCount, h'.ready.writeCount], writer := hw }
  · exact { key := h.ready.decryptor, key' := h'.ready.decryptor, len := k2, len' := k2', count := UInt64.toNat_inj.mp (hc.trans hc'.symm), buffer := h.buffer, buffer' := h'.buffer, reader := hr, records := ⟨_, _, rs, rs', w, w', h.ready.readerIv, h'.ready.readerIv, k4, k4', by rw [hc]; exact hs, by rw [hc]; exact hs', hpub, hfit, by rw [hc]; exact hcnt, hst, hst'⟩ }

/-! ### A case -/

/-- A connection with a record of the server in the transport. -/
noncomputable def waiting (m : Mode) (wk rk : Bytes) (ct : Bytes) : TlsClient where
  reader := { reader := ⟨[.data (recordBytes 23 3 3 ct)]⟩, decryptor := some (.chacha m rk), readCount := 1, iv := some (List.replicate 12 0) }
  writer := { writer := {}, encryptor := some (.chacha m wk), writeCount := 1, iv := some (List.replicate 12 0) }
  rng := ⟨[]⟩

theorem waiting_twin_of (m : Mode) (wk rk wk' rk' f f' n a ct ct' : Bytes) (h1 : wk.length = 32) (h2 : rk.length = 32) (h3 : wk'.length = 32) (h4 : rk'.length = 32)
    (hf : f.length = f'.length) (hl : f.length ≤ 2 ^ 14) (hn : recordNonce (List.replicate 12 0) ((1 : UInt64).toNat % 2 ^ 64) = n)
    (ha : recordAad ((1 : UInt64).toNat % 2 ^ 64) 23 3 3 f.length = a) (h : Spec.Aead.openMsg rk n a ct = some f) (h' : Spec.Aead.openMsg rk' n a ct' = some f')
    (hc : ct.length = f.length + 16) (hc' : ct'.length = f.length + 16) :
    TlsClient.Twin m wk rk wk' rk' (waiting m wk rk ct) (waiting m wk' rk' ct') := by
  have hone : (1 : UInt64).toNat = 1 := rfl
  have hst : ∀ ct : Bytes, Reader.stream ⟨[.data (recordBytes 23 3 3 ct)]⟩ = ofBytes (recordBytes 23 3 3 ct ++ []) := by
    intro ct
    rw [Reader.stream_data _ (by simp [recordBytes])]
    simp [Reader.stream]
  have p1 : ProtectedStream rk (List.replicate 12 0) 23 (1 : UInt64).toNat [(3, 3, f)] (recordBytes 23 3 3 ct ++ []) :=
    .cons (by omega) (by rw [hn, ha]; exact h) .nil
  have p2 : ProtectedStream rk' (List.replicate 12 0) 23 (1 : UInt64).toNat [(3, 3, f')] (recordBytes 23 3 3 ct' ++ []) :=
    .cons (by omega) (by rw [hn, ← hf, ha]; exact h') .nil
  refine { writer := ?_, reader := ?_, buf := rfl }
  · exact { key := rfl, key' := rfl, len := h1, len' := h3, iv := ⟨_, _, rfl, rfl, by simp, by simp⟩, count := rfl, writer := ⟨rfl, rfl⟩ }
  · refine { key := rfl, key' := rfl, len := h2, len' := h4, count := rfl, buffer := rfl, buffer' := rfl, reader := ?_, records := ⟨_, _, _, _, _, _, rfl, rfl, by simp, by simp, p1, p2, ?_, ?_, ?_, hst _, hst _⟩ }
    · show [some _] = [some _]
      simp [recordBytes, hc, hc']
    · simp [publicPart, hf]
    · simpa using hl
    · show (1 : UInt64).toNat + 1 < 2 ^ 64
      rw [hone]; omega

/-- Any keys, any contents of the same length: such connections are compared by C104. -/
theorem waiting_twin (m : Mode) (wk rk wk' rk' f f' : Bytes) (h1 : wk.length = 32) (h2 : rk.length = 32) (h3 : wk'.length = 32) (h4 : rk'.length = 32) (hf : f.length = f'.length)
    (hl : f.length ≤ 2 ^ 14) :
    TlsClient.Twin m wk rk wk' rk'
      (waiting m wk rk (Spec.Aead.sealMsg rk (recordNonce (List.replicate 12 0) 1) (recordAad 1 23 3 3 f.length) f))
      (waiting m wk' rk' (Spec.Aead.sealMsg rk' (recordNonce (List.replicate 12 0) 1) (recordAad 1 23 3 3 f.length) f')) := by
  have hlen : ∀ k n a p : Bytes, (Spec.Aead.sealMsg k n a p).length = p.length + 16 := fun k n a p => by rw [← Spec.Blocks.ofKey_sealMsg, Spec.Blocks.sealMsg_length]
  have hone : (1 : UInt64).toNat % 2 ^ 64 = 1 := by decide
  exact waiting_twin_of m wk rk wk' rk' f f' _ _ _ _ h1 h2 h3 h4 hf hl (by rw [hone]) (by rw [hone]) (openMsg_sealMsg _ _ _ _) (openMsg_sealMsg _ _ _ _) (hlen _ _ _ _)
    ((hlen _ _ _ _).trans (by rw [hf]))

/-- A history of calls on two such connections with different keys and contents. -/
example (m : Mode) : (runCallsT m (List.replicate 32 1) (List.replicate 32 2) [.write [1, 2, 3], .read 2, .read 9, .close]
      (waiting m (List.replicate 32 1) (List.replicate 32 2) (Spec.Aead.sealMsg (List.replicate 32 2) (recordNonce (List.replicate 12 0) 1) (recordAad 1 23 3 3 5) [1, 2, 3, 4, 5]))).1 =
    (runCallsT m (List.replicate 32 3) (List.replicate 32 4) [.write [0, 0, 0], .read 2, .read 9, .close]
      (waiting m (List.replicate 32 3) (List.replicate 32 4) (Spec.Aead.sealMsg (List.replicate 32 4) (recordNonce (List.replicate 12 0) 1) (recordAad 1 23 3 3 5) [0, 0, 0, 0, 0]))).1 :=
  (C104_calls_constant_time [.write [1, 2, 3], .read 2, .read 9, .close] [.write [0, 0, 0], .read 2, .read 9, .close]
    (.cons (by rfl) (.cons (by rfl) (.cons (by rfl) (.cons trivial .nil))))
    (waiting_twin m _ _ _ _ [1, 2, 3, 4, 5] [0, 0, 0, 0, 0] (by simp) (by simp) (by simp) (by simp) rfl (by simp))).1

/-- The observations show the length of the data written (so they are not empty). -/
example : (((TlsClient.writeT .release (some (List.replicate 32 1)) [1]).run
      { reader := TlsReader.new ⟨[]⟩, writer := { writer := {}, encryptor := some (.chacha .release (List.replicate 32 1)), iv := some (List.replicate 12 0) }, rng := ⟨[]⟩ }).1 ==
    ((TlsClient.writeT .release (some (List.replicate 32 1)) [1, 2]).run
      { reader := TlsReader.new ⟨[]⟩, writer := { writer := {}, encryptor := some (.chacha .release (List.replicate 32 1)), iv := some (List.replicate 12 0) }, rng := ⟨[]⟩ }).1) = false := by
  decide +kernel

end Husk
