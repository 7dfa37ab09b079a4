import Verif.Proofs.TraceTls
import Verif.Proofs.TlsReader
import Verif.Proofs.Blocks
import Verif.Props.ConstantTime
import Verif.Props.ServerFlight
import Verif.Props.Acceptance
/-! What the calls of an established session show: two executions that agree on the lengths cannot be told apart. -/

namespace Husk

open TSt
open Int256 (SameLen)
open Spec (Sym ofBytes recordBytes recordNonce recordAad)

/-! ### Writing -/

/-- Two transports on which the coming writes have the same fate; the same number of bytes has been sent. -/
def Writer.Twin (w w' : Writer) : Prop := w.faults = w'.faults ∧ w.wire.length = w'.wire.length

theorem Writer.writeAllT_alike {b b' : Bytes} (h : SameLen b b') : Alike Writer.Twin (fun _ _ => True) (Writer.writeAllT b) (Writer.writeAllT b') := by
  intro w w' hw
  obtain ⟨hf, hl⟩ := hw
  have hb : b.length = b'.length := h
  by_cases hn : b = []
  · subst hn
    have hn' : b' = [] := List.eq_nil_of_length_eq_zero (by simpa using hb.symm)
    subst hn'
    refine ⟨?_, ?_, ?_⟩ <;> simp [writeAllT, writeAll, SameOutcome, Res.isOk, Twin, hf, hl]
  · have hn' : b' ≠ [] := fun e => hn (List.eq_nil_of_length_eq_zero (by rw [hb, e]; rfl))
    rcases w with ⟨wire, faults⟩
    rcases w' with ⟨wire', faults'⟩
    have hf : faults = faults' := hf
    have hl : wire.length = wire'.length := hl
    subst hf
    rcases faults with _ | ⟨_ | k, fs⟩ <;> simp [writeAllT, writeAll, hn, hn', SameOutcome, Res.isOk, Twin, hl, hb]

theorem xorIvT_len (n i : Bytes) : ∃ r, (xorIvT n i).res = .ok r ∧ r.length = n.length := ⟨_, xorIvT_res n i, xorIv_length n i⟩

theorem xorIvT_trace (n n' i i' : Bytes) (hn : SameLen n n') (hi : SameLen i i') : (xorIvT n i).trace = (xorIvT n' i').trace := by
  have key : ∀ n n' i i' : Bytes, SameLen n n' → SameLen i i' → Tr.Same Tr.Same.Any (xorIvT n i) (xorIvT n' i') := by
    intro n
    induction n with
    | nil =>
      intro n' i i' hn hi
      have e : n' = [] := List.eq_nil_of_length_eq_zero hn.symm
      subst e
      cases i <;> cases i' <;> exact Tr.Same.bind (Tr.Same.see _) fun _ _ _ => Tr.Same.pure trivial
    | cons x n ih =>
      intro n' i i' hn hi
      cases n' with
      | nil => cases hn
      | cons x' n' =>
        cases i with
        | nil =>
          have e : i' = [] := List.eq_nil_of_length_eq_zero hi.symm
          subst e
          exact Tr.Same.bind (Tr.Same.see _) fun _ _ _ => Tr.Same.pure trivial
        | cons y i =>
          cases i' with
          | nil => cases hi
          | cons y' i' =>
            rw [xorIvT, xorIvT]
            exact Tr.Same.bind (Tr.Same.see _) fun _ _ _ => Tr.Same.bind (ih n' i i' (Nat.succ.inj hn) (Nat.succ.inj hi)) fun _ _ _ => Tr.Same.pure trivial
  exact (key n n' i i' hn hi _ _ (xorIvT_res _ _) (xorIvT_res _ _)).1

theorem nonceT_trace (count : UInt64) {iv iv' : Bytes} (h : SameLen iv iv') : (nonceT count (some iv)).trace = (nonceT count (some iv')).trace := by
  show [Obs.size 8] ++ ([Obs.branch true] ++ (xorIvT (List.replicate 4 0 ++ Util.u64BeArray count) iv).trace) =
    [Obs.size 8] ++ ([Obs.branch true] ++ (xorIvT (List.replicate 4 0 ++ Util.u64BeArray count) iv').trace)
  rw [xorIvT_trace _ _ _ _ rfl h]

theorem nonceT_ok (count : UInt64) (iv : Bytes) : ∃ n, (nonceT count (some iv)).res = .ok n ∧ n.length = 12 := by
  obtain ⟨r, h1, h2⟩ := xorIvT_len (List.replicate 4 0 ++ Util.u64BeArray count) iv
  refine ⟨r, ?_, by rw [h2]; simp [u64Be]⟩
  unfold nonceT
  simp only [Tr.bind_res, Tr.see_res, Res.bind_ok]
  exact h1

/-- Two writers of established sessions: different keys and IVs, the same record number and the same fate of the coming writes. -/
structure TlsWriter.Twin (m : Mode) (k k' : Bytes) (s s' : TlsWriter) : Prop where
  key : s.HasKey m (some k)
  key' : s'.HasKey m (some k')
  len : k.length = 32
  len' : k'.length = 32
  iv : ∃ iv iv', s.iv = some iv ∧ s'.iv = some iv' ∧ iv.length = 12 ∧ iv'.length = 12
  count : s.writeCount = s'.writeCount
  writer : Writer.Twin s.writer s'.writer

namespace TlsWriter

variable {m : Mode} {k k' : Bytes}

theorem ioT_alike {R : α → β → Prop} {x : TSt Writer α} {y : TSt Writer β} (h : Alike Writer.Twin R x y) : Alike (Twin m k k') R (ioT x) (ioT y) :=
  Alike.zoom h (fun _ _ h => h.writer) fun _ _ _ _ h h' => { h with writer := h' }

/-- Records of the same kind and length. -/
def SameRecord (r r' : Record) : Prop :=
  r.contentType = r'.contentType ∧ r.verMajor = r'.verMajor ∧ r.verMinor = r'.verMinor ∧ r.fragment.length = r'.fragment.length ∧ r.fragment.length ≤ RECORD_MAX_LEN

theorem protectT_alike {r r' : Record} (h : SameRecord r r') : Alike (Twin m k k') SameLen (protectT m (some k) r) (protectT m (some k') r') := by
  obtain ⟨h1, h2, h3, h4, h5⟩ := h
  refine Alike.bind (Alike.see rfl) fun _ _ _ => Alike.bind Alike.get fun s s' hs => ?_
  obtain ⟨iv, iv', e1, e2, l1, l2⟩ := hs.iv
  rw [e1, e2, ← hs.count, ← h1, ← h2, ← h3, ← h4]
  have hM : RECORD_MAX_LEN = 16384 := rfl
  refine Alike.bind (R := fun a b => a.length = 13 ∧ b.length = 13) (Alike.ofTr rfl (by
    show _ ∧ _
    simp [u64Be])) fun ad ad' ha => Alike.bind (R := fun a b => a.length = 12 ∧ b.length = 12) (Alike.ofTr (nonceT_trace _ (l1.trans l2.symm)) (by
      obtain ⟨n, hn, hl⟩ := nonceT_ok s.writeCount iv
      obtain ⟨n', hn', hl'⟩ := nonceT_ok s.writeCount iv'
      rw [hn, hn']
      exact ⟨hl, hl'⟩)) fun n n' hn => Alike.bind (R := SameLen) (Alike.ofTr (C86_encrypt_constant_time m _ _ _ _ _ _ _ _ hs.len hn.1 (by omega) hs.len' hn.2 h4.symm
        (ha.2.trans ha.1.symm)) (by
      rw [Aead.encryptT_res, Aead.encryptT_res, C39_encrypt_is_rfc8439 _ _ _ _ _ hs.len hn.1 (by omega), C39_encrypt_is_rfc8439 _ _ _ _ _ hs.len' hn.2 (by omega)]
      show _ = _
      rw [← Spec.Blocks.ofKey_sealMsg, ← Spec.Blocks.ofKey_sealMsg, Spec.Blocks.sealMsg_length, Spec.Blocks.sealMsg_length, h4])) fun o o' ho =>
    Alike.bind (R := fun _ _ => True) (Alike.quiet fun _ _ h => ⟨trivial, { h with }⟩) fun _ _ _ => Alike.pure ho

theorem bump_alike : Alike (Twin m k k') (fun _ _ => True) (quiet (bump m)) (quiet (bump m)) := Alike.quiet fun s s' h => by
  unfold bump
  dsimp only
  rw [← h.count]
  cases addU64 m s.writeCount 1 with
  | ok n => exact ⟨trivial, { h with count := rfl }⟩
  | err k => exact ⟨rfl, h⟩
  | panic => exact ⟨trivial, h⟩
  | diverge => exact ⟨trivial, h⟩

theorem writeRecordT_alike {r r' : Record} (h : SameRecord r r') : Alike (Twin m k k') (fun _ _ => True) (writeRecordT m (some k) r) (writeRecordT m (some k') r') := by
  refine Alike.bind (protectT_alike h) fun e e' he => Alike.ite (by rw [show e.length = e'.length from he]) (fun _ => Alike.lift trivial) fun _ => ?_
  obtain ⟨h1, h2, h3, h4, h5⟩ := h
  rw [h1, h2, h3, show e.length = e'.length from he]
  exact Alike.bind (ioT_alike (Writer.writeAllT_alike rfl)) fun _ _ _ => Alike.bind (ioT_alike (Writer.writeAllT_alike rfl)) fun _ _ _ =>
    Alike.bind (ioT_alike (Writer.writeAllT_alike rfl)) fun _ _ _ => Alike.bind (ioT_alike (Writer.writeAllT_alike rfl)) fun _ _ _ =>
    Alike.bind (ioT_alike (Writer.writeAllT_alike he)) fun _ _ _ => bump_alike

theorem newT_alike {P : σ → τ → Prop} (ty : ContentType) (a b : UInt8) {f f' : Bytes} (h : SameLen f f') :
    Alike P SameRecord (ofTr (Record.newT ty a b f)) (ofTr (Record.newT ty a b f')) := by
  have hl : f.length = f'.length := h
  by_cases hb : f.length > RECORD_MAX_LEN
  · have hb' : f'.length > RECORD_MAX_LEN := hl ▸ hb
    refine Alike.ofTr ?_ ?_
    · unfold Record.newT
      rw [decide_eq_true hb, decide_eq_true hb']
      rfl
    · rw [Record.newT_res, Record.newT_res, Record.new, Record.new, if_pos hb, if_pos hb']
      trivial
  · have hb' : ¬ f'.length > RECORD_MAX_LEN := hl ▸ hb
    refine Alike.ofTr ?_ ?_
    · unfold Record.newT
      rw [decide_eq_false hb, decide_eq_false hb']
      rfl
    · rw [Record.newT_res, Record.newT_res, Record.new, Record.new, if_neg hb, if_neg hb']
      exact ⟨rfl, rfl, rfl, h, by dsimp only; omega⟩

theorem writeChunksT_alike (ty : ContentType) (cs cs' : List Bytes) (h : cs.map List.length = cs'.map List.length) :
    Alike (Twin m k k') (fun _ _ => True) (writeChunksT m (some k) ty cs) (writeChunksT m (some k') ty cs') := by
  induction cs generalizing cs' with
  | nil =>
    have e : cs' = [] := List.map_eq_nil_iff.mp h.symm
    subst e
    exact Alike.bind (Alike.see rfl) fun _ _ _ => Alike.pure trivial
  | cons c cs ih =>
    cases cs' with
    | nil => cases h
    | cons c' cs' =>
      rw [List.map_cons, List.map_cons, List.cons.injEq] at h
      exact Alike.bind (Alike.see rfl) fun _ _ _ => Alike.bind (Alike.see (congrArg _ h.1)) fun _ _ _ => Alike.bind (newT_alike ty _ _ h.1) fun _ _ hr =>
        Alike.bind (writeRecordT_alike hr) fun _ _ _ => ih cs' h.2

theorem writeDataT_alike (ty : ContentType) {d d' : Bytes} (h : SameLen d d') : Alike (Twin m k k') (fun _ _ => True) (writeDataT m (some k) ty d) (writeDataT m (some k') ty d') :=
  writeChunksT_alike ty _ _ (chunks_lens _ _ _ h)

theorem writeAlertT_alike (a : Alert) : Alike (Twin m k k') (fun _ _ => True) (writeAlertT m (some k) a) (writeAlertT m (some k') a) :=
  Alike.bind (R := (· = ·)) (Alike.lift (by cases (TlsItem.write a : Res Bytes) <;> simp [SameOutcome])) fun d d' e => by
    subst e
    exact Alike.bind (Alike.see rfl) fun _ _ _ => writeDataT_alike _ rfl

theorem writeApplicationDataT_alike {d d' : Bytes} (h : SameLen d d') :
    Alike (Twin m k k') (fun _ _ => True) (writeApplicationDataT m (some k) d) (writeApplicationDataT m (some k') d') :=
  Alike.bind Alike.get fun s s' hs => by
    have e1 : s.encryptor = some (.chacha m k) := hs.key
    have e2 : s'.encryptor = some (.chacha m k') := hs.key'
    rw [e1, e2]
    exact Alike.ite rfl (fun _ => Alike.lift trivial) fun _ => writeDataT_alike _ h

end TlsWriter

/-! ### Reading -/

/-- What can be seen of a transport event: how many bytes, or that it fails. -/
def Ev.shape : Ev → Option Nat
  | .data b => some b.length
  | .fail _ => none

/-- Two transports that deliver their bytes in pieces of the same lengths. -/
def Reader.Twin (r r' : Reader) : Prop := r.script.map Ev.shape = r'.script.map Ev.shape

namespace Reader

theorem readT_alike (n : Nat) : Alike Twin SameLen (readT n) (readT n) := by
  intro r r' h
  rcases r with ⟨es⟩
  rcases r' with ⟨es'⟩
  have h : es.map Ev.shape = es'.map Ev.shape := h
  cases es with
  | nil =>
    have e : es' = [] := List.map_eq_nil_iff.mp h.symm
    subst e
    exact ⟨rfl, rfl, rfl⟩
  | cons e es =>
    cases es' with
    | nil => cases h
    | cons e' es' =>
      rw [List.map_cons, List.map_cons, List.cons.injEq] at h
      obtain ⟨h1, h2⟩ := h
      cases e with
      | fail i =>
        cases e' with
        | fail i' => exact ⟨rfl, rfl, h2⟩
        | data b' => cases h1
      | data b =>
        cases e' with
        | fail i' => cases h1
        | data b' =>
          have hb : b.length = b'.length := by simpa [Ev.shape] using h1
          refine ⟨?_, ?_, ?_⟩
          · simp [readT, read, shown, hb]
          · show (b.take n).length = (b'.take n).length
            rw [List.length_take, List.length_take, hb]
          · show (if b.length ≤ n then es else .data (b.drop n) :: es).map Ev.shape = (if b'.length ≤ n then es' else .data (b'.drop n) :: es').map Ev.shape
            rw [hb]
            split
            · exact h2
            · simp [Ev.shape, hb, h2]

theorem fillLoopT_alike (fuel need : Nat) {acc acc' : Bytes} (h : SameLen acc acc') : Alike Twin SameLen (fillLoopT fuel need acc) (fillLoopT fuel need acc') := by
  induction fuel generalizing need acc acc' with
  | zero =>
    rw [fillLoopT.eq_def, fillLoopT.eq_def]
    exact Alike.ite rfl (fun _ => Alike.pure h) fun _ => Alike.lift trivial
  | succ fuel ih =>
    rw [fillLoopT.eq_def, fillLoopT.eq_def]
    refine Alike.ite rfl (fun _ => Alike.pure h) fun _ => Alike.bind (readT_alike need) fun b b' hb => ?_
    rw [show b.length = b'.length from hb]
    refine Alike.ite rfl (fun _ => Alike.lift rfl) fun _ => ih _ ?_
    simp only [SameLen, List.length_append] at *
    omega

theorem readExactT_alike (n : Nat) : Alike Twin SameLen (readExactT n) (readExactT n) := Alike.bind (Alike.see rfl) fun _ _ _ => fillLoopT_alike n n rfl

theorem Twin.bytes {r r' : Reader} (h : Twin r r') : r.bytes = r'.bytes := by
  have key : ∀ es : List Ev, es.map Ev.bytes = (es.map Ev.shape).map (·.getD 0) := by
    intro es
    rw [List.map_map]
    apply List.map_congr_left
    intro e _
    cases e <;> rfl
  show (r.script.map Ev.bytes).sum = (r'.script.map Ev.bytes).sum
  rw [key, key, h]

/-- Both streams begin with the given bytes. -/
theorem readExactT_both {n : Nat} {r r' : Reader} {w w' : Bytes} {l l' : List Sym} (h : Twin r r') (hw : w.length = n) (hw' : w'.length = n) (hs : r.stream = ofBytes w ++ l)
    (hs' : r'.stream = ofBytes w' ++ l') : ∃ q q', BothOk (readExactT n) (readExactT n) r r' w w' q q' ∧ Twin q q' ∧ q.stream = l ∧ q'.stream = l' := by
  obtain ⟨q, h1, h2⟩ := readExact_ok hw hs
  obtain ⟨q', h1', h2'⟩ := readExact_ok hw' hs'
  have e := (readExactT_agrees n r trivial).1
  have e' := (readExactT_agrees n r' trivial).1
  rw [h1] at e
  rw [h1'] at e'
  obtain ⟨g1, -, g3⟩ := readExactT_alike n r r' h
  rw [e, e'] at g3
  exact ⟨q, q', ⟨((readExactT n).run r).1, Prod.ext rfl e, Prod.ext g1.symm e'⟩, g3, h2, h2'⟩

theorem BothOk_map {x : TSt σ α} {y : TSt τ β} {s s' : σ} {t t' : τ} {a : α} {b : β} (f : α → γ) (g : β → δ) (h : BothOk x y s t a b s' t') :
    BothOk (x >>= fun a => Pure.pure (f a)) (y >>= fun b => Pure.pure (g b)) s t (f a) (g b) s' t' := by
  obtain ⟨u, h1, h2⟩ := h
  exact ⟨u ++ [], by rw [bind_of_ok h1]; rfl, by rw [bind_of_ok h2]; rfl⟩

theorem readU8T_both {r r' : Reader} {x : UInt8} {l l' : List Sym} (h : Twin r r') (hs : r.stream = ofBytes [x] ++ l) (hs' : r'.stream = ofBytes [x] ++ l') :
    ∃ q q', BothOk readU8T readU8T r r' x x q q' ∧ Twin q q' ∧ q.stream = l ∧ q'.stream = l' := by
  obtain ⟨q, q', h1, h2⟩ := readExactT_both (n := 1) h rfl rfl hs hs'
  exact ⟨q, q', BothOk_map (fun b : Bytes => b.getD 0 0) (fun b : Bytes => b.getD 0 0) h1, h2⟩

theorem readBeU16T_both {r r' : Reader} {n : Nat} {l l' : List Sym} (h : Twin r r') (hs : r.stream = ofBytes (beBytes 2 n) ++ l)
    (hs' : r'.stream = ofBytes (beBytes 2 n) ++ l') :
    ∃ q q', BothOk readBeU16T readBeU16T r r' (UInt16.ofNat n) (UInt16.ofNat n) q q' ∧ Twin q q' ∧ q.stream = l ∧ q'.stream = l' := by
  obtain ⟨q, q', h1, h2⟩ := readExactT_both (n := 2) h (by simp) (by simp) hs hs'
  have e : UInt16.ofNat (Util.toBe 2 (leNat (beBytes 2 n))) = UInt16.ofNat n := by
    apply UInt16.toNat_inj.mp
    rw [be16 _ (by simp), beNat_beBytes]
    simp
  have := BothOk_map (fun b => UInt16.ofNat (Util.toBe 2 (leNat b))) (fun b => UInt16.ofNat (Util.toBe 2 (leNat b))) h1
  rw [e] at this
  exact ⟨q, q', this, h2⟩

/-- Nothing more comes. -/
theorem readU8T_end {r r' : Reader} (h : Twin r r') (hs : r.stream = []) (hs' : r'.stream = []) :
    ∃ u q q', readU8T.run r = (u, .err .IoFailure, q) ∧ readU8T.run r' = (u, .err .IoFailure, q') ∧ Twin q q' ∧ q.stream = [] ∧ q'.stream = [] := by
  obtain ⟨q, h1, h2⟩ := readExact_spec 1 r
  obtain ⟨q', h1', h2'⟩ := readExact_spec 1 r'
  rw [hs] at h1 h2
  rw [hs'] at h1' h2'
  have e := (readExactT_agrees 1 r trivial).1
  have e' := (readExactT_agrees 1 r' trivial).1
  rw [h1] at e
  rw [h1'] at e'
  obtain ⟨g1, -, g3⟩ := readExactT_alike 1 r r' h
  rw [e, e'] at g3
  refine ⟨((readExactT 1).run r).1, q, q', ?_, ?_, g3, h2, h2'⟩
  · have : (readExactT 1).run r = (((readExactT 1).run r).1, .err .IoFailure, q) := Prod.ext rfl e
    unfold readU8T
    rw [bind_run, this]
  · have : (readExactT 1).run r' = (((readExactT 1).run r).1, .err .IoFailure, q') := Prod.ext g1.symm e'
    unfold readU8T
    rw [bind_run, this]

end Reader

/-- What an onlooker sees of a record: the version bytes and the length of what it carries. -/
def publicPart (r : UInt8 × UInt8 × Bytes) : UInt8 × UInt8 × Nat := (r.1, r.2.1, r.2.2.length)

/-- Two readers of established sessions: different keys, IVs and contents; the coming records are application data, carry contents of the same lengths and arrive in pieces of the
same lengths. -/
structure TlsReader.Twin (m : Mode) (k k' : Bytes) (s s' : TlsReader) : Prop where
  key : s.HasKey m (some k)
  key' : s'.HasKey m (some k')
  len : k.length = 32
  len' : k'.length = 32
  count : s.readCount = s'.readCount
  buffer : s.handshakeBuffer.buf = []
  buffer' : s'.handshakeBuffer.buf = []
  reader : Reader.Twin s.reader s'.reader
  records : ∃ iv iv' rs rs' w w', s.iv = some iv ∧ s'.iv = some iv' ∧ iv.length = 12 ∧ iv'.length = 12 ∧
    ProtectedStream k iv 23 s.readCount.toNat rs w ∧ ProtectedStream k' iv' 23 s.readCount.toNat rs' w' ∧ rs.map publicPart = rs'.map publicPart ∧
    (∀ r ∈ rs, r.2.2.length ≤ 2 ^ 14) ∧ s.readCount.toNat + rs.length < 2 ^ 64 ∧ s.reader.stream = ofBytes w ∧ s'.reader.stream = ofBytes w'

namespace TlsReader

variable {m : Mode} {k k' : Bytes}

/-- Records of application data of the same length. -/
def SameData (r r' : Record) : Prop := r.contentType = .ApplicationDataTy ∧ r'.contentType = .ApplicationDataTy ∧ r.fragment.length = r'.fragment.length

theorem unprotectT_trace {s s' : TlsReader} (hk : k.length = 32) (hk' : k'.length = 32) (hc : s.readCount = s'.readCount) {iv iv' : Bytes} (hi : s.iv = some iv)
    (hi' : s'.iv = some iv') (hl : SameLen iv iv') (ty : ContentType) (a b : UInt8) {f f' : Bytes} (hf : SameLen f f') (hb : f.length ≤ ENC_RECORD_MAX_LEN) {r r' : Record}
    (h : (unprotectT m (some k) s ty a b f).res = .ok r) (h' : (unprotectT m (some k') s' ty a b f').res = .ok r') :
    (unprotectT m (some k) s ty a b f).trace = (unprotectT m (some k') s' ty a b f').trace := by
  have hf0 : f.length = f'.length := hf
  have hE : ENC_RECORD_MAX_LEN = 18432 := rfl
  have key : Tr.Same Tr.Same.Any (unprotectT m (some k) s ty a b f) (unprotectT m (some k') s' ty a b f') := by
    refine Tr.Same.bind (Tr.Same.see _) fun _ _ _ => Tr.Same.ite (by rw [hf0]) (fun _ => Tr.Same.stop (by simp)) fun _ => ?_
    rw [← hc, hi, hi', ← hf0]
    refine Tr.Same.bind (R := fun a b => a.length = 13 ∧ b.length = 13) (fun x y hx hy => ⟨rfl, ?_⟩) fun ad ad' had =>
      Tr.Same.bind (R := fun a b => a.length = 12 ∧ b.length = 12) (fun x y hx hy => ⟨nonceT_trace _ hl, ?_⟩) fun n n' hn =>
      Tr.Same.bind (R := SameLen) (fun x y hx hy => ?_) fun d d' hd => ?_
    · cases hx; cases hy; simp [u64Be]
    · obtain ⟨n, hn, hl⟩ := nonceT_ok s.readCount iv
      obtain ⟨n', hn', hl'⟩ := nonceT_ok s.readCount iv'
      rw [hn] at hx; rw [hn'] at hy
      cases hx; cases hy
      exact ⟨hl, hl'⟩
    · obtain ⟨t, ht⟩ := C86_decrypt_shows_the_verdict m f.length 13 (by omega)
      obtain ⟨v, h1, h2⟩ := ht k n f ad hk hn.1 rfl had.1
      obtain ⟨v', h1', h2'⟩ := ht k' n' f' ad' hk' hn.2 hf0.symm had.2
      rw [Aead.decryptT_res] at hx hy
      have e : v = false := by
        cases v with
        | false => rfl
        | true => rw [h2.mp rfl] at hx; cases hx
      have e' : v' = false := by
        cases v' with
        | false => rfl
        | true => rw [h2'.mp rfl] at hy; cases hy
      refine ⟨by rw [h1, h1', e, e'], ?_⟩
      rw [C39_decrypt_is_rfc8439 _ _ _ _ _ hk hn.1 (by omega)] at hx
      rw [C39_decrypt_is_rfc8439 _ _ _ _ _ hk' hn.2 (by omega)] at hy
      cases ho : Spec.Aead.openMsg k n ad f with
      | none => rw [ho] at hx; cases hx
      | some p =>
        cases ho' : Spec.Aead.openMsg k' n' ad' f' with
        | none => rw [ho'] at hy; cases hy
        | some p' =>
          rw [ho] at hx; rw [ho'] at hy
          cases hx; cases hy
          have := openMsg_length ho
          have := openMsg_length ho'
          show _ = _
          omega
    · refine Tr.Same.ite (by rw [show d.length = d'.length from hd]) (fun _ => Tr.Same.stop (by simp)) fun _ => ?_
      exact Tr.Same.ite (by rw [show d.length = d'.length from hd]) (fun _ => Tr.Same.stop (by simp)) fun _ => Tr.Same.pure trivial
  exact (key r r' h h').1

theorem ioT_both {x : TSt Reader α} {y : TSt Reader β} {s s' : TlsReader} {a : α} {b : β} {q q' : Reader} (h : BothOk x y s.reader s'.reader a b q q') :
    BothOk (ioT x) (ioT y) s s' a b { s with reader := q } { s' with reader := q' } := BothOk.zoom h

theorem readRecordT_alike : Alike (Twin m k k') SameData (readRecordT m (some k)) (readRecordT m (some k')) := by
  intro s s' h
  show AlikeAt _ _ _ _ _ _
  obtain ⟨iv, iv', rs, rs', w, w', hi, hi', li, li', hp, hp', hpub, hfit, hcnt, hs, hs'⟩ := h.records
  have hE : ENC_RECORD_MAX_LEN = 18432 := rfl
  cases hp with
  | nil =>
    have e : rs' = [] := List.map_eq_nil_iff.mp hpub.symm
    subst e
    cases hp'
    obtain ⟨u, q, q', e1, e2, e3, e4, e5⟩ := Reader.readU8T_end h.reader hs hs'
    refine AlikeAt.fails (u := u) (k := .IoFailure) (s' := { s with reader := q }) (t' := { s' with reader := q' }) ?_ ?_ ?_
    · simp only [ioT, TSt.zoom, e1]
    · simp only [ioT, TSt.zoom, e2]
    · exact { h with reader := e3, records := ⟨iv, iv', [], [], [], [], hi, hi', li, li', .nil, .nil, rfl, by simp, hcnt, e4, e5⟩ }
  | @cons _ a b f ct rs w hct ho hp =>
    cases rs' with
    | nil => cases hpub
    | cons r' rs' =>
      cases hp' with
      | @cons _ a' b' f' ct' _ w' hct' ho' hp' =>
        rw [List.map_cons, List.map_cons, List.cons.injEq] at hpub
        obtain ⟨hp1, hpub⟩ := hpub
        simp only [publicPart, Prod.mk.injEq] at hp1
        obtain ⟨rfl, rfl, hff⟩ := hp1
        have hc1 := openMsg_length ho
        have hc2 := openMsg_length ho'
        have hcl : ct.length = ct'.length := by omega
        have hs1 : s.reader.stream = ofBytes [23] ++ (ofBytes [a] ++ (ofBytes [b] ++ (ofBytes (beBytes 2 ct.length) ++ (ofBytes ct ++ ofBytes w)))) := by
          rw [hs]; simp [recordBytes, ofBytes]
        have hs1' : s'.reader.stream = ofBytes [23] ++ (ofBytes [a] ++ (ofBytes [b] ++ (ofBytes (beBytes 2 ct.length) ++ (ofBytes ct' ++ ofBytes w')))) := by
          rw [hs', hcl]; simp [recordBytes, ofBytes]
        obtain ⟨q1, q1', g1, t1, hs2, hs2'⟩ := Reader.readU8T_both h.reader hs1 hs1'
        obtain ⟨q2, q2', g2, t2, hs3, hs3'⟩ := Reader.readU8T_both t1 hs2 hs2'
        obtain ⟨q3, q3', g3, t3, hs4, hs4'⟩ := Reader.readU8T_both t2 hs3 hs3'
        obtain ⟨q4, q4', g4, t4, hs5, hs5'⟩ := Reader.readBeU16T_both t3 hs4 hs4'
        have hlen : (UInt16.ofNat ct.length).toNat = ct.length := by simp only [UInt16.toNat_ofNat']; omega
        obtain ⟨q5, q5', g5, t5, hs6, hs6'⟩ := Reader.readExactT_both (n := (UInt16.ofNat ct.length).toNat) t4 hlen.symm (by rw [hlen, hcl]) hs5 hs5'
        have hmod : s.readCount.toNat % 2 ^ 64 = s.readCount.toNat := Nat.mod_eq_of_lt (by omega)
        rw [hmod] at ho ho'
        have hfit1 : f.length ≤ 2 ^ 14 := hfit (a, b, f) (by simp)
        have o1 : TlsReader.unprotect { s with reader := q5 } .ApplicationDataTy a b ct = .ok ⟨.ApplicationDataTy, a, b, f⟩ :=
          unprotect_opened (s := { s with reader := q5 }) .ApplicationDataTy a b h.key h.len hi li hfit1 ho
        have o2 : TlsReader.unprotect { s' with reader := q5' } .ApplicationDataTy a b ct' = .ok ⟨.ApplicationDataTy, a, b, f'⟩ :=
          unprotect_opened (s := { s' with reader := q5' }) .ApplicationDataTy a b h.key' h.len' hi' li' (by omega) (by
            show Spec.Aead.openMsg k' (recordNonce iv' s'.readCount.toNat) (recordAad s'.readCount.toNat 23 a b f'.length) ct' = some f'
            rw [← h.count]; exact ho')
        have u1 : (unprotectT m (some k) { s with reader := q5 } .ApplicationDataTy a b ct).res = .ok ⟨.ApplicationDataTy, a, b, f⟩ :=
          (unprotectT_res (show HasKey m (some k) { s with reader := q5 } from h.key) .ApplicationDataTy a b ct).trans o1
        have u2 : (unprotectT m (some k') { s' with reader := q5' } .ApplicationDataTy a b ct').res = .ok ⟨.ApplicationDataTy, a, b, f'⟩ :=
          (unprotectT_res (show HasKey m (some k') { s' with reader := q5' } from h.key') .ApplicationDataTy a b ct').trans o2
        have ut := unprotectT_trace (m := m) (s := { s with reader := q5 }) (s' := { s' with reader := q5' }) h.len h.len' h.count hi hi' (li.trans li'.symm) .ApplicationDataTy a b hcl
          (by omega) u1 u2
        have b1 : (bump m).run { s with reader := q5 } = (.ok (), { s with reader := q5, readCount := s.readCount + 1 }) := bump_ok m { s with reader := q5 } (by
          show s.readCount.toNat + 1 < 2 ^ 64
          simp only [List.length_cons] at hcnt; omega)
        have b2 : (bump m).run { s' with reader := q5' } = (.ok (), { s' with reader := q5', readCount := s'.readCount + 1 }) := bump_ok m { s' with reader := q5' } (by
          show s'.readCount.toNat + 1 < 2 ^ 64
          rw [← h.count]
          simp only [List.length_cons] at hcnt; omega)
        refine BothOk.bind (ioT_both g1) (BothOk.bind (BothOk.see _ _ _) ?_)
        refine BothOk.bind (ioT_both (s := { s with reader := q1 }) (s' := { s' with reader := q1' }) g2) ?_
        refine BothOk.bind (ioT_both (s := { s with reader := q2 }) (s' := { s' with reader := q2' }) g3) ?_
        refine BothOk.bind (ioT_both (s := { s with reader := q3 }) (s' := { s' with reader := q3' }) g4) (BothOk.bind (BothOk.test _ _ _) ?_)
        rw [if_neg (by rw [hlen]; simp; omega), if_neg (by rw [hlen]; simp; omega)]
        refine BothOk.bind (ioT_both (s := { s with reader := q4 }) (s' := { s' with reader := q4' }) g5) (BothOk.bind (BothOk.get _ _) ?_)
        refine BothOk.bind (BothOk.ofTr u1 u2 ut _ _) (BothOk.bind (BothOk.quiet b1 b2) ?_)
        have one : (1 : UInt64).toNat = 1 := rfl
        simp only [List.length_cons] at hcnt
        have hadd : (s.readCount + 1).toNat = s.readCount.toNat + 1 := by rw [UInt64.toNat_add, one]; omega
        refine ⟨rfl, ⟨rfl, rfl, hff⟩, { key := h.key, key' := h.key', len := h.len, len' := h.len', count := ?_, buffer := h.buffer, buffer' := h.buffer', reader := t5, records := ?_ }⟩
        · show s.readCount + 1 = s'.readCount + 1
          rw [h.count]
        · refine ⟨iv, iv', rs, rs', w, w', hi, hi', li, li', ?_, ?_, hpub, fun x hx => hfit x (List.mem_cons_of_mem _ hx), ?_, hs6, hs6'⟩
          · show ProtectedStream k iv 23 (s.readCount + 1).toNat rs w
            rw [hadd]; exact hp
          · show ProtectedStream k' iv' 23 (s.readCount + 1).toNat rs' w'
            rw [hadd]; exact hp'
          · show (s.readCount + 1).toNat + rs.length < 2 ^ 64
            rw [hadd]; omega

/-- Messages of application data of the same length. -/
def SameMessage (x y : Message) : Prop := ∃ b b' : Bytes, x = .ApplicationDataMessage b ∧ y = .ApplicationDataMessage b' ∧ b.length = b'.length

theorem messageStepT_alike : Alike (Twin m k k') (fun x y => ∃ a b, x = some a ∧ y = some b ∧ SameMessage a b) (messageStepT m (some k)) (messageStepT m (some k')) := by
  refine Alike.bind readRecordT_alike fun r r' hr => ?_
  obtain ⟨h1, h2, h3⟩ := hr
  rcases r with ⟨ty, a, b, f⟩
  rcases r' with ⟨ty', a', b', f'⟩
  have h1 : ty = .ApplicationDataTy := h1
  have h2 : ty' = .ApplicationDataTy := h2
  subst h1 h2
  exact Alike.bind (Alike.see rfl) fun _ _ _ => Alike.pure ⟨_, _, rfl, rfl, f, f', rfl, rfl, h3⟩

theorem readMessageT_alike : Alike (Twin m k k') SameMessage (readMessageT m (some k)) (readMessageT m (some k')) := by
  refine Alike.bind (R := fun x y => x = none ∧ y = none) ?_ fun x y hxy => ?_
  · intro s s' h
    have e1 : (onBuffer HandshakeBuffer.getMessage).run s = (.ok none, s) := by
      simp only [onBuffer, St.zoom_run, HandshakeBuffer.getMessage, h.buffer]; rfl
    have e2 : (onBuffer HandshakeBuffer.getMessage).run s' = (.ok none, s') := by
      simp only [onBuffer, St.zoom_run, HandshakeBuffer.getMessage, h.buffer']; rfl
    have f1 : getMessageT.run s = ([.branch true], .ok none, s) := by
      show ([Obs.branch (decide (s.handshakeBuffer.buf.length < 4))] ++ [], (onBuffer HandshakeBuffer.getMessage).run s) = _
      rw [e1, h.buffer]; rfl
    have f2 : getMessageT.run s' = ([.branch true], .ok none, s') := by
      show ([Obs.branch (decide (s'.handshakeBuffer.buf.length < 4))] ++ [], (onBuffer HandshakeBuffer.getMessage).run s') = _
      rw [e2, h.buffer']; rfl
    rw [f1, f2]
    exact ⟨rfl, ⟨rfl, rfl⟩, h⟩
  · obtain ⟨rfl, rfl⟩ := hxy
    refine Alike.bind Alike.get fun s s' _ => Alike.bind messageStepT_alike fun x y hxy => ?_
    obtain ⟨a, b, rfl, rfl, h⟩ := hxy
    exact Alike.pure h

theorem readApplicationDataT_alike : Alike (Twin m k k') SameLen (readApplicationDataT m (some k)) (readApplicationDataT m (some k')) :=
  Alike.bind Alike.get fun s s' hs => by
    have e1 : s.decryptor = some (.chacha m k) := hs.key
    have e2 : s'.decryptor = some (.chacha m k') := hs.key'
    rw [e1, e2]
    refine Alike.ite rfl (fun _ => Alike.lift trivial) fun _ => Alike.bind readMessageT_alike fun x y hxy => ?_
    obtain ⟨b, b', rfl, rfl, h⟩ := hxy
    exact Alike.bind (Alike.see rfl) fun _ _ _ => Alike.lift h

end TlsReader

/-! ### The client -/

/-- Two established sessions: different keys, IVs and contents; the lengths are the same. -/
structure TlsClient.Twin (m : Mode) (wk rk wk' rk' : Bytes) (c c' : TlsClient) : Prop where
  writer : TlsWriter.Twin m wk wk' c.writer c'.writer
  reader : TlsReader.Twin m rk rk' c.reader c'.reader
  buf : c.buf.length = c'.buf.length

namespace TlsClient

variable {m : Mode} {wk rk wk' rk' : Bytes}

theorem onWriterT_alike {R : α → β → Prop} {x : TSt TlsWriter α} {y : TSt TlsWriter β} (h : Alike (TlsWriter.Twin m wk wk') R x y) :
    Alike (Twin m wk rk wk' rk') R (onWriterT x) (onWriterT y) := Alike.zoom h (fun _ _ h => h.writer) fun _ _ _ _ h h' => { h with writer := h' }

theorem onReaderT_alike {R : α → β → Prop} {x : TSt TlsReader α} {y : TSt TlsReader β} (h : Alike (TlsReader.Twin m rk rk') R x y) :
    Alike (Twin m wk rk wk' rk') R (onReaderT x) (onReaderT y) := Alike.zoom h (fun _ _ h => h.reader) fun _ _ _ _ h h' => { h with reader := h' }

theorem closeT_alike : Alike (Twin m wk rk wk' rk') (fun _ _ => True) (closeT m (some wk)) (closeT m (some wk')) := onWriterT_alike (TlsWriter.writeAlertT_alike _)

theorem sendTlsAlertT_run (key : Option Bytes) {e : TlsErrorKind} (he : e ≠ .IoFailure) (c : TlsClient) : (sendTlsAlertT m key e).run c =
    match (onWriterT (TlsWriter.writeAlertT m key (Alert.fromTlsErr e))).run c with
    | (t, .ok (), c) => ([.branch false] ++ t ++ [.branch true], .ok e, c)
    | (t, .err k', c) => ([.branch false] ++ t ++ [.branch false], .ok k', c)
    | (t, .panic, c) => ([.branch false] ++ t, .panic, c)
    | (t, .diverge, c) => ([.branch false] ++ t, .diverge, c) := by cases e <;> first | exact absurd rfl he | rfl

theorem sendTlsAlertT_alike (e : TlsErrorKind) : Alike (Twin m wk rk wk' rk') (· = ·) (sendTlsAlertT m (some wk) e) (sendTlsAlertT m (some wk') e) := by
  intro c c' h
  by_cases he : e = .IoFailure
  · subst he; exact ⟨rfl, rfl, h⟩
  · obtain ⟨h1, h2, h3⟩ := onWriterT_alike (rk := rk) (rk' := rk') (TlsWriter.writeAlertT_alike (m := m) (k := wk) (k' := wk') (Alert.fromTlsErr e)) c c' h
    rw [sendTlsAlertT_run _ he, sendTlsAlertT_run _ he]
    revert h1 h2 h3
    rcases (onWriterT (TlsWriter.writeAlertT m (some wk) (Alert.fromTlsErr e))).run c with ⟨t, r, d⟩
    rcases (onWriterT (TlsWriter.writeAlertT m (some wk') (Alert.fromTlsErr e))).run c' with ⟨t', r', d'⟩
    intro h1 h2 h3
    have h1 : t = t' := h1
    subst h1
    cases r <;> cases r' <;> first | exact absurd h2 id | skip
    · exact ⟨rfl, rfl, h3⟩
    · exact ⟨rfl, h2, h3⟩
    · exact ⟨rfl, trivial, h3⟩
    · exact ⟨rfl, trivial, h3⟩

theorem writeAllT_alike {d d' : Bytes} (hd : SameLen d d') : Alike (Twin m wk rk wk' rk') (fun _ _ => True) (writeAllT m (some wk) d) (writeAllT m (some wk') d') := by
  intro c c' h
  obtain ⟨h1, h2, h3⟩ := onWriterT_alike (rk := rk) (rk' := rk') (TlsWriter.writeApplicationDataT_alike (m := m) (k := wk) (k' := wk') hd) c c' h
  unfold writeAllT
  dsimp only
  revert h1 h2 h3
  rcases (onWriterT (TlsWriter.writeApplicationDataT m (some wk) d)).run c with ⟨t, r, e⟩
  rcases (onWriterT (TlsWriter.writeApplicationDataT m (some wk') d')).run c' with ⟨t', r', e'⟩
  intro h1 h2 h3
  have h1 : t = t' := h1
  subst h1
  cases r <;> cases r' <;> first | exact absurd h2 id | skip
  · exact ⟨rfl, trivial, h3⟩
  · rename_i k k'
    have hk : k = k' := h2
    subst hk
    obtain ⟨g1, g2, g3⟩ := (Alike.bind (sendTlsAlertT_alike (m := m) (wk := wk) (rk := rk) (wk' := wk') (rk' := rk') k) fun a b (hab : a = b) =>
      Alike.lift (R := fun (_ _ : Unit) => True) (x := .err a) (y := .err b) hab) e e' h3
    exact ⟨congrArg (t ++ [Obs.branch false] ++ ·) g1, g2, g3⟩
  · exact ⟨rfl, trivial, h3⟩
  · exact ⟨rfl, trivial, h3⟩

theorem writeT_alike {d d' : Bytes} (hd : SameLen d d') : Alike (Twin m wk rk wk' rk') (· = ·) (writeT m (some wk) d) (writeT m (some wk') d') :=
  Alike.bind (writeAllT_alike hd) fun _ _ _ => Alike.pure hd

theorem refillT_alike : Alike (Twin m wk rk wk' rk') (· = ·) (refillT m (some rk)) (refillT m (some rk')) := by
  intro c c' h
  obtain ⟨h1, h2, h3⟩ := onReaderT_alike (wk := wk) (wk' := wk') (TlsReader.readApplicationDataT_alike (m := m) (k := rk) (k' := rk')) c c' h
  have he : c.buf.isEmpty = c'.buf.isEmpty := by
    have := h.buf
    cases hc : c.buf <;> cases hc' : c'.buf <;> simp_all
  unfold refillT
  dsimp only
  rw [← he]
  by_cases hb : c.buf.isEmpty = true
  · rw [if_pos hb, if_pos hb]
    revert h1 h2 h3
    rcases (onReaderT (TlsReader.readApplicationDataT m (some rk))).run c with ⟨t, r, e⟩
    rcases (onReaderT (TlsReader.readApplicationDataT m (some rk'))).run c' with ⟨t', r', e'⟩
    intro h1 h2 h3
    have h1 : t = t' := h1
    subst h1
    cases r <;> cases r' <;> first | exact absurd h2 id | skip
    · rename_i a b
      have hab : a.length = b.length := h2
      refine ⟨?_, rfl, { h3 with buf := ?_ }⟩
      · dsimp only; rw [hab]
      · show (e.buf ++ a).length = (e'.buf ++ b).length
        rw [List.length_append, List.length_append, h3.buf, hab]
    · exact ⟨rfl, rfl, h3⟩
    · exact ⟨rfl, trivial, h3⟩
    · exact ⟨rfl, trivial, h3⟩
  · rw [if_neg hb, if_neg hb]
    exact ⟨rfl, rfl, h⟩

theorem readLoopT_alike (fuel n : Nat) {acc acc' : Bytes} (h : SameLen acc acc') :
    Alike (Twin m wk rk wk' rk') SameLen (readLoopT m (some rk) fuel n acc) (readLoopT m (some rk') fuel n acc') := by
  induction fuel generalizing n acc acc' with
  | zero =>
    rw [readLoopT.eq_def, readLoopT.eq_def]
    exact Alike.ite rfl (fun _ => Alike.pure h) fun _ => Alike.lift trivial
  | succ fuel ih =>
    rw [readLoopT.eq_def, readLoopT.eq_def]
    refine Alike.ite rfl (fun _ => Alike.pure h) fun _ => Alike.bind refillT_alike fun b b' hb => ?_
    subst hb
    cases b with
    | false => exact Alike.pure h
    | true =>
      refine Alike.bind Alike.get fun c c' hc => ?_
      dsimp only
      rw [hc.buf]
      refine Alike.bind (Alike.see rfl) fun _ _ _ => Alike.bind (Alike.see rfl) fun _ _ _ => Alike.bind (Alike.see rfl) fun _ _ _ =>
        Alike.bind (R := fun _ _ => True) (Alike.quiet fun d d' hd => ⟨trivial, { hd with buf := ?_ }⟩) fun _ _ _ => ih _ ?_
      · show (d.buf.drop _).length = (d'.buf.drop _).length
        rw [List.length_drop, List.length_drop, hd.buf]
      · simp only [SameLen, List.length_append, List.length_take] at *
        rw [h, hc.buf]

theorem readT_alike (n : Nat) : Alike (Twin m wk rk wk' rk') SameLen (readT m (some rk) n) (readT m (some rk') n) :=
  Alike.bind Alike.get fun c c' h => by
    rw [h.reader.reader.bytes]
    exact readLoopT_alike _ _ rfl

end TlsClient

end Husk
