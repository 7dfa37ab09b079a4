import Verif.Model.ReadCost
import Verif.Props.Buffering
/-! C117: how often `read` moves a byte of application data on its way from the record layer to the caller's buffer. -/

namespace Husk

open Item Spec TlsReader TlsClient

/-! ### Specification -/

/-- The number of bytes one call moves. Only `read` moves incoming data. -/
def Call.moves (m : Mode) (c : TlsClient) : Call → Nat
  | .read len => (readMoving m len c).2.2
  | _ => 0

/-- The number of bytes a history of calls moves. -/
def callsMove (m : Mode) : List Call → TlsClient → Nat
  | [], _ => 0
  | call :: calls, c => call.moves m c + callsMove m calls (call.run m c).2

/-- The claim: whatever buffer sizes an application chooses, the bytes are moved at most `k` times each, not counting `k` records' worth of bytes. -/
def MovesAtMost (k : Nat) : Prop := ∀ (m : Mode) (rd : Reader) (wr : Writer) (rng : Rng) (c : TlsClient), TlsClient.new m rd wr rng = (.ok (), c) → ∀ calls : List Call,
  callsMove m calls c ≤ k * ((received (runCalls m calls c).1).length + 2 ^ 14)

/-! ### Proofs -/

/-- The counting does not change what `read` does. -/
theorem readLoopMoving_erase (m : Mode) (fuel rem : Nat) (acc : Bytes) (moved : Nat) (c : TlsClient) :
    (readLoop m fuel rem acc).run c = ((readLoopMoving m fuel rem acc moved c).1, (readLoopMoving m fuel rem acc moved c).2.1) := by
  induction fuel generalizing rem acc moved c with
  | zero =>
    rw [readLoop.eq_def, readLoopMoving]; dsimp only
    by_cases h : rem = 0
    · rw [if_pos h, if_pos h]; rfl
    · rw [if_neg h, if_neg h]; rfl
  | succ fuel ih =>
    rw [readLoop.eq_def, readLoopMoving]; dsimp only
    by_cases h : rem = 0
    · rw [if_pos h, if_pos h]; rfl
    · rw [if_neg h, if_neg h]
      rw [St.bind_run]
      rcases (refill m).run c with ⟨r, c'⟩
      cases r with
      | ok b =>
        cases b with
        | true =>
          dsimp only
          rw [if_pos rfl, St.bind_run, St.get_run]
          dsimp only
          rw [St.bind_run, St.modify_run]
          exact ih _ _ _ _
        | false => rfl
      | _ => rfl

theorem readMoving_erase (m : Mode) (len : Nat) (c : TlsClient) : (TlsClient.read m len).run c = ((readMoving m len c).1, (readMoving m len c).2.1) := by
  unfold TlsClient.read readMoving
  rw [St.bind_run, St.get_run]
  exact readLoopMoving_erase m _ _ _ _ _

/-- A refill that succeeds leaves a non-empty buffer alone; one that does not comes from an empty buffer. -/
theorem refill_cases (m : Mode) (c c' : TlsClient) (b : Bool) (h : (refill m).run c = (.ok b, c')) : (b = true → c.buf = [] ∨ c'.buf = c.buf) ∧ (b = false → c'.buf = []) := by
  simp only [refill] at h
  split at h
  · rename_i he
    have he := List.isEmpty_iff.mp he
    refine ⟨fun _ => Or.inl he, fun hb => ?_⟩
    simp only [TlsClient.onReader, St.zoom_run] at h
    rcases hx : (readApplicationData m).run c.reader with ⟨x, s⟩
    rw [hx] at h
    cases x with
    | ok d => simp only [Prod.mk.injEq, Res.ok.injEq] at h; rw [← h.1] at hb; cases hb
    | err k => simp only [Prod.mk.injEq, Res.ok.injEq] at h; rw [← h.2]; exact he
    | panic => simp at h
    | diverge => simp at h
  · simp only [Prod.mk.injEq, Res.ok.injEq] at h
    exact ⟨fun _ => Or.inr (by rw [h.2]), fun hb => by rw [← h.1] at hb; cases hb⟩

/-- One call: every byte delivered is moved at most twice, every byte left in the buffer at most twice, and if the call does not fill the caller's buffer nothing is left. -/
theorem readLoopMoving_le (m : Mode) (fuel rem : Nat) (acc : Bytes) (moved : Nat) (c c' : TlsClient) (out : Bytes) (n : Nat) (h : readLoopMoving m fuel rem acc moved c = (.ok out, c', n))
    (hm : rem = 0 → moved ≤ 2 * acc.length + 2 * c.buf.length) (hm0 : rem ≠ 0 → moved ≤ 2 * acc.length) :
    n ≤ 2 * out.length + 2 * c'.buf.length ∧ (out.length < acc.length + rem → c'.buf = []) := by
  induction fuel generalizing rem acc moved c with
  | zero =>
    rw [readLoopMoving] at h
    split at h
    · rename_i h0
      simp only [Prod.mk.injEq, Res.ok.injEq] at h
      obtain ⟨rfl, rfl, rfl⟩ := h
      exact ⟨hm h0, fun hlt => by omega⟩
    · simp at h
  | succ fuel ih =>
    rw [readLoopMoving] at h
    split at h
    · rename_i h0
      simp only [Prod.mk.injEq, Res.ok.injEq] at h
      obtain ⟨rfl, rfl, rfl⟩ := h
      exact ⟨hm h0, fun hlt => by omega⟩
    · rename_i h0
      have hm := hm0 h0
      dsimp only at h
      rcases hr : (refill m).run c with ⟨r, c1⟩
      rw [hr] at h
      cases r with
      | ok b =>
        obtain ⟨e1, e2⟩ := refill_cases m c c1 b hr
        cases b with
        | true =>
          dsimp only at h
          have hext : c1.buf.length - c.buf.length ≤ c1.buf.length := Nat.sub_le _ _
          obtain ⟨g1, g2⟩ := ih _ _ _ _ h
            (fun hz => by simp only [List.length_append, List.length_take, List.length_drop]; omega)
            (fun hz => by simp only [List.length_append, List.length_take, List.length_drop]; omega)
          refine ⟨g1, fun hlt => g2 ?_⟩
          simp only [List.length_append, List.length_take]
          omega
        | false =>
          dsimp only at h
          simp only [Prod.mk.injEq, Res.ok.injEq] at h
          obtain ⟨rfl, rfl, rfl⟩ := h
          have := e2 rfl
          exact ⟨by omega, fun _ => this⟩
      | err k => simp at h
      | panic => simp at h
      | diverge => simp at h

theorem readMoving_le (m : Mode) (len : Nat) (c c' : TlsClient) (out : Bytes) (n : Nat) (h : readMoving m len c = (.ok out, c', n)) :
    n ≤ 2 * out.length + 2 * c'.buf.length ∧ (out.length < len → c'.buf = []) := by
  have := readLoopMoving_le m _ _ _ _ _ _ _ _ h (by simp) (by simp)
  simpa using this

/-- The sum of `1` to `n`. -/
def upTo (n : Nat) : Nat := n * (n + 1) / 2

theorem upTo_succ (n : Nat) : upTo (n + 1) = (n + 1) + upTo n := by
  unfold upTo
  have : (n + 1) * (n + 1 + 1) = 2 * (n + 1) + n * (n + 1) := by ring
  rw [this, Nat.mul_add_div (by decide)]

/-- One byte from a buffer that has some moves the whole buffer. -/
theorem readMoving_one (m : Mode) (c : TlsClient) (b : UInt8) (bs : Bytes) (h : c.buf = b :: bs) : readMoving m 1 c = (.ok [b], { c with buf := bs }, bs.length + 1) := by
  have hr : (refill m).run c = (.ok true, c) := by simp [refill, h]
  unfold readMoving
  rw [show 1 + c.reader.reader.bytes + 1 = (c.reader.reader.bytes + 1) + 1 by omega, readLoopMoving, if_neg (by decide)]
  dsimp only
  rw [hr]
  dsimp only
  rw [h]
  simp only [List.length_cons, show min 1 (bs.length + 1) = 1 by omega, List.drop_succ_cons, List.drop_zero, List.take_succ_cons, List.take_zero, List.nil_append, Nat.sub_self]
  rw [show ∀ (fuel : Nat) (a : Bytes) (n : Nat) (d : TlsClient), readLoopMoving m fuel 0 a n d = (.ok a, d, n) from fun fuel a n d => by cases fuel <;> rfl]
  simp only [Prod.mk.injEq, true_and]
  omega

/-- One byte from an empty buffer when a record arrives moves the whole record twice. -/
theorem readMoving_first (m : Mode) (c : TlsClient) (b : UInt8) (bs : Bytes) (s : TlsReader) (h : c.buf = []) (hr : (readApplicationData m).run c.reader = (.ok (b :: bs), s)) :
    readMoving m 1 c = (.ok [b], { c with reader := s, buf := bs }, 2 * (bs.length + 1)) := by
  have hr : (refill m).run c = (.ok true, { c with reader := s, buf := b :: bs }) := by
    simp only [refill, h, List.isEmpty_nil, if_true, TlsClient.onReader, St.zoom_run, hr, List.nil_append]
  unfold readMoving
  rw [show 1 + c.reader.reader.bytes + 1 = (c.reader.reader.bytes + 1) + 1 by omega, readLoopMoving, if_neg (by decide)]
  dsimp only
  rw [hr]
  dsimp only
  simp only [List.length_cons, show min 1 (bs.length + 1) = 1 by omega, List.drop_succ_cons, List.drop_zero, List.take_succ_cons, List.take_zero, List.nil_append, Nat.sub_self, h, List.length_nil]
  rw [show ∀ (fuel : Nat) (a : Bytes) (n : Nat) (d : TlsClient), readLoopMoving m fuel 0 a n d = (.ok a, d, n) from fun fuel a n d => by cases fuel <;> rfl]
  simp only [Prod.mk.injEq, true_and]
  omega

theorem callsMove_step (m : Mode) {c c' : TlsClient} {out : Bytes} {n : Nat} (h : readMoving m 1 c = (.ok out, c', n)) (calls : List Call) :
    callsMove m (.read 1 :: calls) c = n + callsMove m calls c' := by
  have e := readMoving_erase m 1 c
  rw [h] at e
  simp only [callsMove, Call.moves, Call.run, e, h]

/-- Emptying the buffer byte by byte. -/
theorem callsMove_buffer (m : Mode) (calls : List Call) : ∀ (buf : Bytes) (c : TlsClient), c.buf = buf →
    callsMove m (List.replicate buf.length (.read 1) ++ calls) c = upTo buf.length + callsMove m calls { c with buf := [] } := by
  intro buf
  induction buf with
  | nil => intro c h; obtain ⟨_, _, _, _⟩ := c; subst h; simp [upTo]
  | cons b bs ih =>
    intro c h
    rw [List.length_cons, List.replicate_succ, List.cons_append, callsMove_step m (readMoving_one m c b bs h), ih _ rfl, upTo_succ]
    dsimp only
    omega

/-- Reading everything that is pending byte by byte. -/
theorem callsMove_pending (m : Mode) : ∀ (ds : List Bytes) (w w' : TlsWriter) (sent : List (Record × Bytes)) (l : List Sym) (c : TlsClient), Pending w sent ds w' l c.reader → c.buf = [] →
    (∀ d ∈ ds, d ≠ []) → callsMove m (List.replicate ds.flatten.length (.read 1)) c = (ds.map fun d => d.length + upTo d.length).sum := by
  intro ds
  induction ds with
  | nil => intro w w' sent l c _ _ _; rfl
  | cons d ds ih =>
    intro w w' sent l c hp hb hne
    cases sent with
    | nil => have := hp.hands; cases this
    | cons rc sent =>
      obtain ⟨w1, s1, h1, h2⟩ := hp.step m
      cases d with
      | nil => exact absurd rfl (hne [] List.mem_cons_self)
      | cons b bs =>
        have hf := readMoving_first m c b bs s1 hb h1
        rw [List.flatten_cons, List.length_append, List.replicate_add, List.length_cons, List.replicate_succ, List.cons_append, callsMove_step m hf,
          callsMove_buffer m _ bs _ rfl, ih w1 w' sent l _ h2 rfl fun d hd => hne d (List.mem_cons_of_mem _ hd), List.map_cons, List.sum_cons, List.length_cons, upTo_succ]
        omega

/-! ### C117 -/

/-- C117, the counting program is the program: results and states are those of `read`. -/
theorem C117_same_read (m : Mode) (len : Nat) (c : TlsClient) : (TlsClient.read m len).run c = ((readMoving m len c).1, (readMoving m len c).2.1) := readMoving_erase m len c

/-- C117, exactly what one-byte reads cost: a server that follows the protocol sends the (non-empty) records `fs` after the handshake and the application takes them byte by byte;
then each record of `n` bytes costs `n + (1 + 2 + … + n)` bytes moved. -/
theorem C117_one_byte_reads (m : Mode) (rd : Reader) (wr : Writer) (rng : Rng) (hfa : wr.faults = []) (random block rest : Bytes) (D : Draws rng.bytes random block rest)
    (V : ServerValues) (hV : V.Conforms) (S : Session) (hS : S = V.session random (clientPoint block)) (fs1 fs2 : List Bytes)
    (fs : List Bytes) (hfs : ∀ f ∈ fs, f.length ≤ 2 ^ 14) (hne : ∀ f ∈ fs, f ≠ []) (hn : fs.length < 2 ^ 63) (l : List Sym)
    (hrd : Reply S fs1 fs2 (ofBytes (protectedRecords S.keys.serverKey S.keys.serverIv 23 fs2.length fs) ++ l) rd) :
    ∃ c, TlsClient.new m rd wr rng = (.ok (), c) ∧
      received (runCalls m (List.replicate fs.flatten.length (.read 1)) c).1 = fs.flatten ∧
      callsMove m (List.replicate fs.flatten.length (.read 1)) c = (fs.map fun f => f.length + f.length * (f.length + 1) / 2).sum := by
  obtain ⟨c, h, -, -, -, h2⟩ := C66_delivered m rd wr rng hfa random block rest D V hV S hS fs1 fs2 fs hfs hn l hrd (List.replicate fs.flatten.length (.read 1)) (by
    simp [Call.lens])
  have hl : (Call.lens (List.replicate fs.flatten.length (.read 1))).sum = fs.flatten.length := by simp [Call.lens]
  rw [hl, List.take_length] at h2
  refine ⟨c, h, h2, ?_⟩
  obtain ⟨c', w, h', hr⟩ := reply_run m rd wr rng hfa random block rest D V hV S hS (serverVerify_length D hV hS) fs1 fs2 _ hrd
  rw [h] at h'
  obtain rfl : c = c' := (Prod.mk.inj h').2
  obtain ⟨k1, k2, k3, k4, _⟩ := hr.lengths
  obtain ⟨p1, p2, p3, p4⟩ := hr.peer
  have hc : w.writeCount.toNat = fs2.length := by
    rw [p3, UInt64.toNat_ofNat']
    have := hrd.finished.2.1
    omega
  have hlt : w.writeCount.toNat + fs.length < 2 ^ 64 := by have := hrd.finished.2.1; omega
  obtain ⟨w', sent, hsent, hmap, _, _, _, _, hlen⟩ := fragments_sent hfs .ApplicationDataTy w hr.synced.sealsShort p4 hlt
  have hwire := sent_protected (m := m) k2 k4 hsent p1 p2 hfs hmap hlt
  have hp : Pending w sent fs w' l c.reader := by
    refine ⟨hsent, hr.synced, by rw [hr.decryptor]; rfl, by rw [hr.buffer]; exact NoMessage.empty, ?_, by rw [hlen]; exact hlt, hands_of_records rfl hmap, ?_⟩
    · intro rc hrc
      have : rc.1 ∈ TlsWriter.recordsOf .ApplicationDataTy fs := by rw [← hmap]; exact List.mem_map.mpr ⟨rc, hrc, rfl⟩
      obtain ⟨f, hf, he⟩ := List.mem_map.mp this
      rw [← he]
      exact hfs f hf
    · rw [hr.stream, hwire, hc]; rfl
  exact callsMove_pending m fs w w' sent l c hp hr.buf hne

/-- C117 is false: the application can choose buffers so that every byte of a record is moved more than 8000 times on average; no number below 4000 will do for `k`. -/
theorem C117_false (k : Nat) (hk : k ≤ 4000) : ¬ MovesAtMost k := by
  intro hall
  obtain ⟨V, hV⟩ : ∃ V : ServerValues, V.Conforms := ⟨{ random := List.replicate 32 7, secret := 1 },
    ⟨by simp, by simp, by simp, by simp, by decide, by rw [one_nsmul]; exact Spec.P256.G_ne_zero, by simp⟩⟩
  have D : Draws (List.replicate 32 0 ++ (5 :: List.replicate 31 0)) (List.replicate 32 0) (5 :: List.replicate 31 0) [] :=
    ⟨⟨[], by simp, by simp⟩, by simp, by simp, by decide⟩
  obtain ⟨S, hS⟩ : ∃ S, S = V.session (List.replicate 32 0) (clientPoint (5 :: List.replicate 31 0)) := ⟨_, rfl⟩
  have hc2 := cuts_exists (finishedBytes S.serverVerify) (by simp [finishedBytes, handshakeBytes, serverVerify_length D hV hS])
  obtain ⟨f, hf⟩ : ∃ f : Bytes, f.length = 2 ^ 14 := ⟨List.replicate (2 ^ 14) 0, List.length_replicate⟩
  obtain ⟨c, h1, h2, h3⟩ := C117_one_byte_reads .release
    (byteByByte (serverWire S (chunks 16384 S.flight) (chunks 16384 (finishedBytes S.serverVerify)) ++
      protectedRecords S.keys.serverKey S.keys.serverIv 23 (chunks 16384 (finishedBytes S.serverVerify)).length [f])) {} ⟨_⟩ rfl _ _ _ D V hV S hS _ _ [f]
    (by simp [hf]) (by rintro d hd rfl; simp at hd; rw [hd] at hf; simp at hf) (by simp) []
    ⟨cuts_exists _ (by have := flight_length hV hS; omega), hc2, by rw [stream_byteByByte, ofBytes_append, List.append_nil]⟩
  have := hall _ _ _ _ c h1 (List.replicate [f].flatten.length (.read 1))
  rw [h2, h3] at this
  simp only [List.map_cons, List.map_nil, List.sum_cons, List.sum_nil, List.flatten_cons, List.flatten_nil, List.append_nil, hf] at this
  omega

/-- C117, what holds for every call and every state: each byte delivered is moved at most twice and each byte that stays in the buffer at most twice; after a call that does not
fill the caller's buffer none stays. -/
theorem C117_call_partial (m : Mode) (len : Nat) (c c' : TlsClient) (out : Bytes) (n : Nat) (h : readMoving m len c = (.ok out, c', n)) :
    n ≤ 2 * out.length + 2 * c'.buf.length ∧ (out.length < len → c'.buf = []) := readMoving_le m len c c' out n h

/-- C117, what holds for sessions: with buffers of at least one record every byte is moved at most four times, whatever arrives. The suffix says what is missing: smaller buffers. -/
theorem C117_large_buffers_partial (m : Mode) (rd : Reader) (wr : Writer) (rng : Rng) (c : TlsClient) (h : TlsClient.new m rd wr rng = (.ok (), c)) (calls : List Call)
    (hlen : ∀ len, Call.read len ∈ calls → 2 ^ 14 ≤ len) (hret : ∀ r ∈ (runCalls m calls c).1, r.Returned) :
    callsMove m calls c ≤ 4 * (received (runCalls m calls c).1).length := by
  have hb : Bounded c := by have := new_bounded m rd wr rng; rw [h] at this; exact this
  clear h
  induction calls generalizing c with
  | nil => exact Nat.zero_le _
  | cons call calls ih =>
    have hb' := call.run_bounded m hb
    have hih := ih (call.run m c).2 (fun len hl => hlen len (List.mem_cons_of_mem _ hl)) (fun r hr => hret r (List.mem_cons_of_mem _ hr)) hb'
    have hone : call.moves m c ≤ 4 * (received [(call.run m c).1]).length := by
      cases call with
      | read len =>
        have hr := hret _ (List.mem_cons_self (a := (Call.run m c (.read len)).1))
        rcases hx : readMoving m len c with ⟨x, c', n⟩
        have e := readMoving_erase m len c
        rw [hx] at e
        simp only [Call.run, Call.moves, e, hx] at hb' hr ⊢
        cases x with
        | ok out =>
          obtain ⟨g1, g2⟩ := readMoving_le m len c c' out n hx
          have hl := hlen len List.mem_cons_self
          have hb2 := hb'.2
          simp only [received, List.flatMap_cons, List.flatMap_nil, List.append_nil]
          rcases Nat.lt_or_ge out.length len with hlt | hge
          · rw [g2 hlt, List.length_nil] at g1; omega
          · omega
        | err k => exact absurd e (C25_never_err m len c _ k)
        | panic => exact absurd hr (by simp [CallResult.Returned, Res.Returns])
        | diverge => exact absurd hr (by simp [CallResult.Returned, Res.Returns])
      | _ => exact Nat.zero_le _
    have e : received (runCalls m (call :: calls) c).1 = received [(call.run m c).1] ++ received (runCalls m calls (call.run m c).2).1 := by
      simp only [runCalls, received, List.flatMap_cons, List.flatMap_nil, List.append_nil]
    rw [e, List.length_append, callsMove]
    omega

end Husk
