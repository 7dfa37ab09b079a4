import Verif.Model.TraceHandshake
import Verif.Proofs.TraceClient
/-! Reading in clear, in two runs: where the same bytes come in pieces of the same lengths, the same is observed. -/

namespace Husk

open TSt Spec

theorem TSt.BothOk.andThen {x : TSt σ α} {y : TSt τ β} {s s1 s2 : σ} {t t1 t2 : τ} {a : α} {b : β} {c : γ} {d : δ} {f : α → TSt σ γ} {g : β → TSt τ δ} (h : BothOk x y s t a b s1 t1)
    (hf : BothOk (f a) (g b) s1 t1 c d s2 t2) : BothOk (x >>= f) (y >>= g) s t c d s2 t2 := by
  obtain ⟨u, h1, h2⟩ := h
  obtain ⟨v, g1, g2⟩ := hf
  exact ⟨u ++ v, by rw [bind_of_ok h1, g1], by rw [bind_of_ok h2, g2]⟩

theorem addU64_release (a b : UInt64) : addU64 .release a b = .ok (a + b) := by
  unfold addU64
  split <;> rfl

namespace TlsReader

/-- A record at the front of both transports, that both accept. -/
theorem recordT_both {m : Mode} {key key' : Option Bytes} {s s' : TlsReader} {ty : ContentType} {a b : UInt8} {f f' : Bytes} {rec rec' : Record} {l l' : List Sym} {n : UInt64}
    (hr : Reader.Twin s.reader s'.reader) (hc : s.readCount = s'.readCount) (hf : f.length ≤ ENC_RECORD_MAX_LEN) (hff : f.length = f'.length)
    (hs : s.reader.stream = ofBytes (recordBytes ty.toU8 a b f) ++ l) (hs' : s'.reader.stream = ofBytes (recordBytes ty.toU8 a b f') ++ l')
    (u : (unprotectT m key s ty a b f).res = .ok rec) (u' : (unprotectT m key' s' ty a b f').res = .ok rec')
    (ut : (unprotectT m key s ty a b f).trace = (unprotectT m key' s' ty a b f').trace) (hn : addU64 m s.readCount 1 = .ok n) :
    ∃ q q', BothOk (readRecordT m key) (readRecordT m key') s s' rec rec' { s with reader := q, readCount := n } { s' with reader := q', readCount := n } ∧ Reader.Twin q q' ∧
      q.stream = l ∧ q'.stream = l' := by
  have hE : ENC_RECORD_MAX_LEN = 18432 := rfl
  have hs1 : s.reader.stream = ofBytes [ty.toU8] ++ (ofBytes [a] ++ (ofBytes [b] ++ (ofBytes (beBytes 2 f.length) ++ (ofBytes f ++ l)))) := by
    rw [hs]; simp [recordBytes, ofBytes]
  have hs1' : s'.reader.stream = ofBytes [ty.toU8] ++ (ofBytes [a] ++ (ofBytes [b] ++ (ofBytes (beBytes 2 f.length) ++ (ofBytes f' ++ l')))) := by
    rw [hs', hff]; simp [recordBytes, ofBytes]
  obtain ⟨q1, q1', g1, t1, hs2, hs2'⟩ := Reader.readU8T_both hr hs1 hs1'
  obtain ⟨q2, q2', g2, t2, hs3, hs3'⟩ := Reader.readU8T_both t1 hs2 hs2'
  obtain ⟨q3, q3', g3, t3, hs4, hs4'⟩ := Reader.readU8T_both t2 hs3 hs3'
  obtain ⟨q4, q4', g4, t4, hs5, hs5'⟩ := Reader.readBeU16T_both t3 hs4 hs4'
  have hlen : (UInt16.ofNat f.length).toNat = f.length := by simp only [UInt16.toNat_ofNat']; omega
  obtain ⟨q5, q5', g5, t5, hs6, hs6'⟩ := Reader.readExactT_both (n := (UInt16.ofNat f.length).toNat) t4 hlen.symm (by rw [hlen, hff]) hs5 hs5'
  refine ⟨q5, q5', ?_, t5, hs6, hs6'⟩
  have b1 : (bump m).run { s with reader := q5 } = (.ok (), { s with reader := q5, readCount := n }) := by simp only [bump, hn]
  have b2 : (bump m).run { s' with reader := q5' } = (.ok (), { s' with reader := q5', readCount := n }) := by simp only [bump, ← hc, hn]
  refine (ioT_both g1).andThen ((BothOk.see _ _ _).andThen ?_)
  rw [ContentType.ofU8_toU8]
  refine (ioT_both (s := { s with reader := q1 }) (s' := { s' with reader := q1' }) g2).andThen ?_
  refine (ioT_both (s := { s with reader := q2 }) (s' := { s' with reader := q2' }) g3).andThen ?_
  refine (ioT_both (s := { s with reader := q3 }) (s' := { s' with reader := q3' }) g4).andThen ((BothOk.test _ _ _).andThen ?_)
  rw [if_neg (by rw [hlen]; simp; omega), if_neg (by rw [hlen]; simp; omega)]
  refine (ioT_both (s := { s with reader := q4 }) (s' := { s' with reader := q4' }) g5).andThen ((BothOk.get _ _).andThen ?_)
  refine (BothOk.ofTr (x := unprotectT m key { s with reader := q5 } ty a b f) (y := unprotectT m key' { s' with reader := q5' } ty a b f') u u' ut _ _).andThen ((BothOk.quiet b1 b2).andThen ?_)
  exact ⟨[], rfl, rfl⟩

/-- Two readers without keys in the same state; the coming bytes have the same cuts. -/
structure Level (s s' : TlsReader) : Prop where
  clear : s.decryptor = none
  clear' : s'.decryptor = none
  count : s.readCount = s'.readCount
  buffer : s.handshakeBuffer = s'.handshakeBuffer
  reader : Reader.Twin s.reader s'.reader

/-- A call that succeeds has taken some bytes from the transport; if another transport begins with these bytes, the call has the same result there, with the same observations. -/
def Frames (x : TSt TlsReader α) (y : St TlsReader α) : Prop := ∀ s s' s1 a, Level s s' → y.run s = (.ok a, s1) →
  ∃ w, s.reader.stream = ofBytes w ++ s1.reader.stream ∧ ∀ l', s'.reader.stream = ofBytes w ++ l' → ∃ s1', BothOk x x s s' a a s1 s1' ∧ Level s1 s1' ∧ s1'.reader.stream = l'

namespace Frames

variable {m : Mode}

theorem bind {x : TSt TlsReader α} {y : St TlsReader α} {f : α → TSt TlsReader β} {g : α → St TlsReader β} (hx : Frames x y) (hf : ∀ a, Frames (f a) (g a)) : Frames (x >>= f) (y >>= g) := by
  intro s s' s2 b hl h
  obtain ⟨a, s1, h1, h2⟩ := St.bind_eq_ok h
  obtain ⟨w1, e1, k1⟩ := hx s s' s1 a hl h1
  -- the second call runs on what the first leaves; what it takes is found with any level partner
  have hself : Level s1 s1 := by
    obtain ⟨s1', _, l1, _⟩ := hx s s s1 a ⟨hl.clear, hl.clear, rfl, rfl, rfl⟩ h1 |>.choose_spec.2 s1.reader.stream ((hx s s s1 a ⟨hl.clear, hl.clear, rfl, rfl, rfl⟩ h1).choose_spec.1)
    exact ⟨l1.clear, l1.clear, rfl, rfl, rfl⟩
  obtain ⟨w2, e2, k2⟩ := hf a s1 s1 s2 b hself h2
  refine ⟨w1 ++ w2, by rw [e1, e2, ofBytes_append, List.append_assoc], fun l' hs' => ?_⟩
  obtain ⟨s1', b1, l1, t1⟩ := k1 (ofBytes w2 ++ l') (by rw [hs', ofBytes_append, List.append_assoc])
  obtain ⟨w2', e2', k2'⟩ := hf a s1 s1' s2 b l1 h2
  have hw : ofBytes w2 = ofBytes w2' := List.append_cancel_right (e2.symm.trans e2')
  obtain ⟨s2', b2, l2, t2⟩ := k2' l' (by rw [t1, hw])
  exact ⟨s2', b1.andThen b2, l2, t2⟩

theorem still {x : TSt TlsReader α} {y : St TlsReader α} (h : ∀ s s' s1 a, Level s s' → y.run s = (.ok a, s1) →
    s1.reader = s.reader ∧ ∃ s1', BothOk x x s s' a a s1 s1' ∧ Level s1 s1' ∧ s1'.reader = s'.reader) : Frames x y := by
  intro s s' s1 a hl hy
  obtain ⟨e, s1', h1, h2, h3⟩ := h s s' s1 a hl hy
  exact ⟨[], by rw [e]; rfl, fun l' hs => ⟨s1', h1, h2, by rw [h3, hs]; rfl⟩⟩

theorem pure (a : α) : Frames (Pure.pure a) (Pure.pure a) := still fun s s' s1 b hl h => by
  cases h
  exact ⟨rfl, s', ⟨_, rfl, rfl⟩, hl, rfl⟩

theorem tr {x : Tr α} {r : Res α} (hx : x.res = r) : Frames (ofTr x) (St.lift r) := still fun s s' s1 b hl h => by
  subst hx
  have e : x.res = .ok b ∧ s1 = s := by
    simp only [St.lift_run, Prod.mk.injEq] at h
    exact ⟨h.1, h.2.symm⟩
  obtain ⟨e, rfl⟩ := e
  exact ⟨rfl, s', BothOk.ofTr e e rfl _ _, hl, rfl⟩

theorem lift (r : Res α) : Frames (quiet (St.lift r)) (St.lift r) := still fun s s' s1 b hl h => by
  have e : r = .ok b ∧ s1 = s := by
    simp only [St.lift_run, Prod.mk.injEq] at h
    exact ⟨h.1, h.2.symm⟩
  obtain ⟨e, rfl⟩ := e
  exact ⟨rfl, s', BothOk.quiet (by rw [e]; rfl) (by rw [e]; rfl), hl, rfl⟩

theorem see {o : Obs} {f : Unit → TSt TlsReader α} {y : St TlsReader α} (h : Frames (f ()) y) : Frames (TSt.see o >>= f) y := by
  intro s s' s1 a hl hy
  obtain ⟨w, e, k⟩ := h s s' s1 a hl hy
  refine ⟨w, e, fun l' hs => ?_⟩
  obtain ⟨s1', h1, h2⟩ := k l' hs
  exact ⟨s1', (BothOk.see o s s').andThen h1, h2⟩

theorem test {b : Bool} {f : Bool → TSt TlsReader α} {y : St TlsReader α} (h : Frames (f b) y) : Frames (TSt.test b >>= f) y := by
  intro s s' s1 a hl hy
  obtain ⟨w, e, k⟩ := h s s' s1 a hl hy
  refine ⟨w, e, fun l' hs => ?_⟩
  obtain ⟨s1', h1, h2⟩ := k l' hs
  exact ⟨s1', (BothOk.test b s s').andThen h1, h2⟩

theorem fails {x : TSt TlsReader α} {y : St TlsReader α} (h : ∀ s a s1, y.run s ≠ (.ok a, s1)) : Frames x y := fun s _ s1 a _ hy => absurd hy (h s a s1)

theorem err {x : TSt TlsReader α} (k : TlsErrorKind) : Frames x (St.err k) := fails fun _ _ _ h => by cases h

theorem buffer (z : St HandshakeBuffer α) : Frames (quiet (onBuffer z)) (onBuffer z) := still fun s s' s1 a hl h => by
  simp only [onBuffer, St.zoom_run, Prod.mk.injEq] at h
  obtain ⟨h1, h2⟩ := h
  subst h2
  refine ⟨rfl, { s' with handshakeBuffer := (z.run s'.handshakeBuffer).2 }, BothOk.quiet ?_ ?_, ?_, rfl⟩
  · simp only [onBuffer, St.zoom_run, h1]
  · simp only [onBuffer, St.zoom_run, ← hl.buffer, h1]
  · exact ⟨hl.clear, hl.clear', hl.count, by rw [hl.buffer], hl.reader⟩

theorem getMessage : Frames getMessageT (onBuffer HandshakeBuffer.getMessage) := by
  intro s s' s1 a hl hy
  obtain ⟨w, e, k⟩ := buffer HandshakeBuffer.getMessage s s' s1 a hl hy
  refine ⟨w, e, fun l' hs => ?_⟩
  obtain ⟨s1', h1, h2⟩ := k l' hs
  refine ⟨s1', (BothOk.get s s').andThen ?_, h2⟩
  rw [show s'.handshakeBuffer = s.handshakeBuffer from hl.buffer.symm]
  exact (BothOk.see _ s s').andThen h1

/-- The number of a record that is accepted does not overflow. -/
theorem readRecord_counts {m : Mode} {s s' : TlsReader} {rec : Record} (h : (TlsReader.readRecord m).run s = (.ok rec, s')) : addU64 m s.readCount 1 = .ok (s.readCount + 1) := by
  have ho := readRecord_outcome m s
  rw [h] at ho
  generalize hx : (Res.ok rec, s') = x at ho
  cases ho with
  | io => simp at hx
  | badType => simp at hx
  | tooLong => simp at hx
  | full ty a b f r' hl hs =>
    rw [finish_run] at hx
    cases hu : TlsReader.unprotect { s with reader := r' } ty a b f with
    | ok r =>
      rw [hu] at hx
      simp only [bump] at hx
      have hc : addU64 m s.readCount 1 = .ok (s.readCount + 1) ∨ addU64 m s.readCount 1 = .panic := by
        unfold addU64
        cases m <;> split <;> simp
      rcases hc with hc | hc
      · exact hc
      · rw [hc] at hx
        simp at hx
    | err k => rw [hu] at hx; simp at hx
    | panic => rw [hu] at hx; simp at hx
    | diverge => rw [hu] at hx; simp at hx

theorem readRecord {m : Mode} : Frames (readRecordT m none) (TlsReader.readRecord m) := by
  intro s s' s1 rec hl hy
  have hag := (readRecordT_agrees (m := m) (key := none) s hl.clear).1
  rw [hy] at hag
  obtain ⟨ty, a, b, f, r', hf, hs, hu, rfl⟩ := readRecord_inv hy
  refine ⟨recordBytes ty.toU8 a b f, hs, fun l' hs' => ?_⟩
  have u1 : (unprotectT m none s ty a b f).res = .ok rec := (unprotectT_res (show HasKey m none s from hl.clear) ty a b f).trans hu
  obtain ⟨q, q', h1, h2, h3, h4⟩ := recordT_both (m := m) (key := none) (key' := none) hl.reader hl.count hf rfl hs hs' u1 (show (unprotectT m none s' ty a b f).res = _ from u1) rfl
    (readRecord_counts hy)
  obtain ⟨u, e1, e2⟩ := h1
  rw [e1] at hag
  simp only [Prod.mk.injEq, true_and] at hag
  have hq : q = r' := congrArg TlsReader.reader hag
  subst hq
  exact ⟨_, ⟨u, e1, e2⟩, ⟨hl.clear, hl.clear', rfl, hl.buffer, h2⟩, h4⟩

theorem step {m : Mode} : Frames (messageStepT m none) (TlsReader.messageStep m) := by
  refine bind readRecord fun r => see ?_
  rcases r with ⟨ty, a, b, f⟩
  cases ty with
  | ChangeCipherSpecTy => exact see (see (bind (lift _) fun _ => pure _))
  | AlertTy => exact bind (tr (alertMessageT_res f)) fun _ => pure _
  | HandshakeTy =>
    refine test ?_
    dsimp only
    split
    · exact err _
    · refine see (bind (buffer _) fun _ => bind getMessage fun msg => see ?_)
      cases msg with
      | some h => exact pure _
      | none => exact pure _
  | ApplicationDataTy => exact pure _

theorem loop {m : Mode} (fuel : Nat) : Frames (messageLoopT m none fuel) (TlsReader.messageLoop m fuel) := by
  induction fuel with
  | zero => exact lift _
  | succ fuel ih =>
    refine bind step fun o => ?_
    cases o with
    | some msg => exact pure _
    | none => exact ih

theorem readMessage {m : Mode} : Frames (readMessageT m none) (TlsReader.readMessage m) := by
  refine bind getMessage fun o => ?_
  cases o with
  | some h => exact pure _
  | none =>
    intro s s' s1 a hl hy
    obtain ⟨w, e, k⟩ := loop (s.reader.bytes + 1) s s' s1 a hl hy
    refine ⟨w, e, fun l' hs => ?_⟩
    obtain ⟨s1', h1, h2⟩ := k l' hs
    refine ⟨s1', (BothOk.get s s').andThen ?_, h2⟩
    rw [← hl.reader.bytes]
    exact h1

theorem readHandshake {m : Mode} : Frames (readHandshakeT m none) (TlsReader.readHandshake m) := by
  refine bind readMessage fun msg => see ?_
  cases msg with
  | HandshakeMessage h => exact pure _
  | AlertMessage a => exact err _
  | ChangeCipherSpecMessage => exact err _
  | ApplicationDataMessage d => exact err _

theorem readChange {m : Mode} : Frames (readChangeCipherSpecT m none) (TlsReader.readChangeCipherSpec m) := by
  refine bind readMessage fun msg => see ?_
  cases msg with
  | ChangeCipherSpecMessage => exact pure _
  | HandshakeMessage h => exact err _
  | AlertMessage a => exact err _
  | ApplicationDataMessage d => exact err _

open TlsClient

theorem serverHello {m : Mode} : Frames (expectT m none pickServerHello) (expectServerHello m) := by
  refine bind readHandshake fun h => see ?_
  cases h <;> first | exact pure _ | exact err _

theorem certificate {m : Mode} : Frames (expectT m none pickCertificate) (expectCertificate m) := by
  refine bind readHandshake fun h => see ?_
  cases h <;> first | exact pure _ | exact err _

theorem serverKeyExchange {m : Mode} : Frames (expectT m none pickServerKeyExchange) (expectServerKeyExchange m) := by
  refine bind readHandshake fun h => see ?_
  cases h <;> first | exact pure _ | exact err _

theorem serverHelloDone {m : Mode} : Frames (expectT m none pickServerHelloDone) (expectServerHelloDone m) := by
  refine bind readHandshake fun h => see ?_
  cases h <;> first | exact pure _ | exact err _

end Frames

end TlsReader

end Husk
