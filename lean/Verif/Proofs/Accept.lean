import Verif.Proofs.HandshakeServer
/-! The records from which a message was read, exactly: what they must be, and that this suffices. -/

namespace Husk

open Item Spec

namespace TlsReader

theorem readRecord_number {m : Mode} {s s' : TlsReader} {rec : Record} (h : (readRecord m).run s = (.ok rec, s')) (hm : m = .debug) : s.readCount.toNat + 1 < 2 ^ 64 := by
  obtain ⟨ty, a, b, f, r', hl, hs, hu, -⟩ := readRecord_inv h
  obtain ⟨r1, -, h1⟩ := readRecord_front (m := m) hl hs
  rw [h1, finish_run] at h
  have e : TlsReader.unprotect { s with reader := r1 } ty a b f = s.unprotect ty a b f := rfl
  rw [e, hu] at h
  by_contra hc
  subst hm
  have one : (1 : UInt64).toNat = 1 := rfl
  have hb : (bump .debug).run { s with reader := r1 } = (.panic, { s with reader := r1 }) := by
    simp only [bump, addU64, one, if_neg hc]
  rw [hb] at h
  simp at h

/-- What `read_message` asks of the records besides what they carry: handshake records are not empty, the number of a record does not overflow in a debug build, and
the records before the last one do not complete a message. -/
structure Needed (m : Mode) (s : TlsReader) (recs : List Record) : Prop where
  filled : ∀ r ∈ recs, r.contentType = .HandshakeTy → r.fragment ≠ []
  number : m = .debug → s.readCount.toNat + recs.length < 2 ^ 64
  waits : ∀ pre rec, recs = pre ++ [rec] → HandshakeBuffer.getMessage.run ⟨s.handshakeBuffer.buf ++ frags pre⟩ = (.ok none, ⟨s.handshakeBuffer.buf ++ frags pre⟩)

theorem messageStep_filled {m : Mode} {s s' : TlsReader} {o : Option Message} (h : (messageStep m).run s = (.ok o, s')) :
    ∃ rec s1, (readRecord m).run s = (.ok rec, s1) ∧ (rec.contentType = .HandshakeTy → rec.fragment ≠ []) := by
  obtain ⟨rec, s1, h1, h2⟩ := St.bind_eq_ok h
  refine ⟨rec, s1, h1, fun hty he => ?_⟩
  rw [hty] at h2
  simp only at h2
  rw [if_pos (by rw [he]; rfl)] at h2
  simp [St.err_run] at h2

theorem toU8_inj {t t' : ContentType} (h : t.toU8 = t'.toU8) : t = t' := by
  cases t <;> cases t' <;> first | rfl | (exact absurd h (by decide))

theorem record_inj {ty ty' : ContentType} {a b a' b' : UInt8} {f f' : Bytes} {l l' : List Sym} (hf : f.length ≤ ENC_RECORD_MAX_LEN) (hf' : f'.length ≤ ENC_RECORD_MAX_LEN)
    (e : ofBytes (recordBytes ty.toU8 a b f) ++ l = ofBytes (recordBytes ty'.toU8 a' b' f') ++ l') : ty = ty' ∧ a = a' ∧ b = b' ∧ f = f' ∧ l = l' := by
  have hE : ENC_RECORD_MAX_LEN = 18432 := rfl
  have hb : ∀ (t : ContentType) (a b : UInt8) (f : Bytes) (l : List Sym),
      ofBytes (recordBytes t.toU8 a b f) ++ l = .byte t.toU8 :: .byte a :: .byte b :: (ofBytes (beBytes 2 f.length) ++ (ofBytes f ++ l)) := by
    intro t a b f l
    simp [recordBytes, ofBytes]
  rw [hb, hb] at e
  simp only [List.cons.injEq, Sym.byte.injEq] at e
  obtain ⟨e1, e2, e3, e⟩ := e
  obtain ⟨e4, e5⟩ := List.append_inj e (by simp [ofBytes])
  have e4 := ofBytes_inj e4
  have hlen : f.length = f'.length := by
    have := congrArg beNat e4
    rw [beNat_beBytes, beNat_beBytes, Nat.mod_eq_of_lt (by omega), Nat.mod_eq_of_lt (by omega)] at this
    exact this
  obtain ⟨e6, e7⟩ := List.append_inj e5 (by simp [ofBytes, hlen])
  exact ⟨toU8_inj e1, e2, e3, ofBytes_inj e6, e7⟩

/-- The records taken are determined by where the stream begins and ends. -/
theorem Took.unique {s s1 s2 : TlsReader} {r1 r2 : List Record} (h1 : Took s r1 s1) (h2 : Took s r2 s2) (e : s1.reader.stream = s2.reader.stream) : r1 = r2 := by
  induction h1 generalizing r2 with
  | @nil s s1 a _ _ _ =>
    cases h2 with
    | nil => rfl
    | cons hl hs hu d1 d2 d3 hk =>
      have h3 := (Took.cons hl hs hu d1 d2 d3 hk).count
      rw [← e, a] at h3
      simp only [List.length_cons] at h3
      omega
  | @cons s t s1 ty a b f rec recs hl hs hu d1 d2 d3 hk ih =>
    have hk' := hk
    cases h2 with
    | nil a =>
      have h3 := (Took.cons hl hs hu d1 d2 d3 hk).count
      rw [e, a] at h3
      simp only [List.length_cons] at h3
      omega
    | @cons _ t' _ ty' a' b' f' rec' recs' hl' hs' hu' d1' d2' d3' hk' =>
      obtain ⟨rfl, rfl, rfl, rfl, g⟩ := record_inj hl hl' (hs.symm.trans hs')
      rw [hu] at hu'
      cases hu'
      rw [ih (hk'.left g.symm (d1'.trans d1.symm) (d2'.trans d2.symm) (d3'.trans d3.symm)) e]

theorem messageLoop_needed {m : Mode} (fuel : Nat) {s s' : TlsReader} {msg : Message} (h : (messageLoop m fuel).run s = (.ok msg, s'))
    (hn : HandshakeBuffer.getMessage.run s.handshakeBuffer = (.ok none, s.handshakeBuffer)) :
    ∃ recs, recs ≠ [] ∧ Took s recs s' ∧ Needed m s recs := by
  induction fuel generalizing s with
  | zero => simp [messageLoop, St.lift_run] at h
  | succ fuel ih =>
    obtain ⟨o, s1, h1, h2⟩ := St.bind_eq_ok h
    obtain ⟨rec, ht, ho⟩ := messageStep_inv h1
    obtain ⟨rec', t, g1, g2⟩ := messageStep_filled h1
    have hrec : rec = rec' := by
      have ht' := (readRecord_took g1).1
      cases ht with
      | cons hl hs hu d1 d2 d3 hk =>
        cases ht' with
        | cons hl' hs' hu' d1' d2' d3' hk' =>
          obtain ⟨rfl, rfl, rfl, rfl, g⟩ := record_inj hl hl' (hs.symm.trans hs')
          rw [hu] at hu'
          exact Res.ok.inj hu'
    subst hrec
    have hnum := readRecord_number g1
    cases o with
    | some msg' =>
      simp only [St.pure_run, Prod.mk.injEq, Res.ok.injEq] at h2
      obtain ⟨rfl, rfl⟩ := h2
      refine ⟨[rec], by simp, ht, ?_, hnum, ?_⟩
      · intro r hr; rw [List.mem_singleton.mp hr]; exact g2
      · intro pre r e
        have hpre : pre = [] := by
          have := congrArg List.length e
          simp at this
          exact this
        subst hpre
        simpa [frags] using hn
    | none =>
      obtain ⟨ho1, ho2, ho3⟩ := ho
      obtain ⟨recs, h0, ht', hN⟩ := ih h2 ho3
      have hc : s1.readCount = s.readCount + 1 := by
        cases ht with
        | cons _ _ _ _ d2 _ hk => cases hk with | nil _ _ k _ => rw [k, d2]
      refine ⟨rec :: recs, by simp, ht.trans ht', ?_, ?_, ?_⟩
      · intro r hr
        rcases List.mem_cons.mp hr with rfl | hr
        · exact g2
        · exact hN.filled r hr
      · intro hm
        have h3 := hN.number hm
        have h4 := hnum hm
        have h1 : (1 : UInt64).toNat = 1 := rfl
        rw [hc, UInt64.toNat_add, h1, Nat.mod_eq_of_lt h4] at h3
        rw [List.length_cons]
        omega
      · intro pre r e
        cases pre with
        | nil =>
          simp only [List.nil_append, List.cons.injEq] at e
          exact absurd e.2 h0
        | cons p pre =>
          simp only [List.cons_append, List.cons.injEq] at e
          obtain ⟨rfl, e⟩ := e
          have := hN.waits pre r e
          rw [ho2] at this
          have e2 : frags (rec :: pre) = rec.fragment ++ frags pre := rfl
          rw [e2, ← List.append_assoc]
          exact this

/-- The records a message came from are those needed. -/
theorem readMessage_needed {m : Mode} {s s' : TlsReader} {msg : Message} (h : (readMessage m).run s = (.ok msg, s')) {recs : List Record} (ht : Took s recs s') :
    Needed m s recs := by
  obtain ⟨o, s1, h1, h2⟩ := St.bind_eq_ok h
  simp only [onBuffer, St.zoom_run] at h1
  rcases hg : HandshakeBuffer.getMessage.run s.handshakeBuffer with ⟨x, b'⟩
  rw [hg] at h1
  simp only [Prod.mk.injEq] at h1
  obtain ⟨rfl, rfl⟩ := h1
  cases o with
  | some hh =>
    simp only [St.pure_run, Prod.mk.injEq, Res.ok.injEq] at h2
    obtain ⟨rfl, rfl⟩ := h2
    have : recs = [] := ht.unique (.nil (s := s) (s' := { s with handshakeBuffer := b' }) rfl rfl rfl rfl) rfl
    subst this
    refine ⟨by simp, fun _ => ?_, by simp⟩
    exact s.readCount.toNat_lt
  | none =>
    have := getMessage_none hg
    subst this
    have h2' : (messageLoop m (s.reader.bytes + 1)).run s = (.ok msg, s') := h2
    obtain ⟨recs', _, h3, h4⟩ := messageLoop_needed _ h2' hg
    rw [ht.unique h3 rfl]
    exact h4

theorem unprotect_short {s : TlsReader} {ty : ContentType} {a b : UInt8} {f : Bytes} {rec : Record} (h : s.unprotect ty a b f = .ok rec) : rec.fragment.length ≤ 2 ^ 14 := by
  have hn : ∀ {d : Bytes} {rec : Record}, Record.new ty a b d = .ok rec → rec.fragment.length ≤ 2 ^ 14 := by
    intro d rec h
    unfold Record.new at h
    split at h
    · cases h
    · rename_i hl
      cases h
      simpa [RECORD_MAX_LEN] using hl
  unfold unprotect at h
  cases hd : s.decryptor with
  | none =>
    simp only [hd] at h
    split at h
    · cases h
    · exact hn h
  | some d =>
    simp only [hd] at h
    split at h
    · cases h
    · obtain ⟨data, h1, h2⟩ := Res.bind_eq_ok.mp h
      split at h2
      · cases h2
      · exact hn h2

/-- No record that was taken carries more than 2^14 bytes. -/
theorem Took.le {s s' : TlsReader} {recs : List Record} (h : Took s recs s') : ∀ r ∈ recs, r.fragment.length ≤ 2 ^ 14 := by
  induction h with
  | nil => simp
  | cons _ _ hu _ _ _ _ ih =>
    intro r hr
    rcases List.mem_cons.mp hr with rfl | hr
    · exact unprotect_short hu
    · exact ih r hr

/-! ### The other direction -/

theorem Took.record {m : Mode} {s s' : TlsReader} {rec : Record} {recs : List Record} (h : Took s (rec :: recs) s') (hn : m = .debug → s.readCount.toNat + 1 < 2 ^ 64) :
    ∃ r', (readRecord m).run s = (.ok rec, { s with reader := r', readCount := s.readCount + 1 }) ∧ Took { s with reader := r', readCount := s.readCount + 1 } recs s' := by
  cases h with
  | @cons _ s1 _ ty a b f _ _ hl hs hu d1 d2 d3 hk =>
    obtain ⟨r1, h0, h1⟩ := readRecord_front (m := m) hl hs
    refine ⟨r1, ?_, hk.left h0.symm d1 d2 d3⟩
    rw [h1, finish_run]
    have e : TlsReader.unprotect { s with reader := r1 } ty a b f = s.unprotect ty a b f := rfl
    rw [e, hu]
    have hb : addU64 m s.readCount 1 = .ok (s.readCount + 1) := by
      have one : (1 : UInt64).toNat = 1 := rfl
      cases m with
      | debug => rw [addU64.eq_def, one, if_pos (hn rfl)]
      | release => simp [addU64]
    simp only [bump, hb]
    rfl

theorem Took.buffer {s s' : TlsReader} {recs : List Record} (h : Took s recs s') (b : HandshakeBuffer) : Took { s with handshakeBuffer := b } recs s' :=
  Took.left (s := s) rfl rfl rfl rfl h

/-- Handshake records, and none is empty. -/
def Filled (recs : List Record) : Prop := ∀ r ∈ recs, r.contentType = .HandshakeTy ∧ r.fragment ≠ []

theorem Filled.tail {r : Record} {recs : List Record} (h : Filled (r :: recs)) : Filled recs := fun r hr => h r (List.mem_cons_of_mem _ hr)

theorem number_tail {m : Mode} {s : TlsReader} {r' : Reader} {n : Nat} (h : m = .debug → s.readCount.toNat + (n + 1) < 2 ^ 64) :
    m = .debug → ({ s with reader := r', readCount := s.readCount + 1 } : TlsReader).readCount.toNat + n < 2 ^ 64 := by
  intro hm
  have := h hm
  have one : (1 : UInt64).toNat = 1 := rfl
  show (s.readCount + 1).toNat + n < 2 ^ 64
  rw [UInt64.toNat_add, one, Nat.mod_eq_of_lt (by omega)]
  omega

theorem Took.loopFramed (m : Mode) {h : Handshake} {b bs : Bytes} (hb : Framed b h) {s' : TlsReader} (recs : List Record) (fuel : Nat) :
    ∀ {s : TlsReader}, Took s recs s' → (m = .debug → s.readCount.toNat + recs.length < 2 ^ 64) → Filled recs → s.handshakeBuffer.buf ++ frags recs = b ++ bs →
      s.handshakeBuffer.buf.length < b.length → countBytes s.reader.stream < fuel →
    ∃ recs1 s1, (messageLoop m fuel).run s = (.ok (.HandshakeMessage h), s1) ∧ Took s1 recs1 s' ∧ (m = .debug → s1.readCount.toNat + recs1.length < 2 ^ 64) ∧
      recs1 <:+ recs ∧ s1.handshakeBuffer.buf ++ frags recs1 = bs ∧ s1.decryptor = s.decryptor := by
  induction recs generalizing fuel with
  | nil =>
    intro s ht hn hf hp hlt hfu
    have := congrArg List.length hp
    simp [frags] at this
    omega
  | cons rec recs ih =>
    intro s ht hn hf hp hlt hfu
    cases fuel with
    | zero => omega
    | succ fuel =>
      rw [List.length_cons] at hn
      obtain ⟨r', h1, h2⟩ := ht.record (m := m) (fun hm => by have := hn hm; omega)
      have hcons := readRecord_consumes h1
      obtain ⟨hty, hne⟩ := hf rec (by simp)
      rw [frags, List.flatMap_cons, ← List.append_assoc] at hp
      have hn' := number_tail (r' := r') hn
      rcases Codec.split_front hp with ⟨x, hx1, hx2⟩ | ⟨t, ht', hx⟩
      · have hg : HandshakeBuffer.getMessage.run ⟨s.handshakeBuffer.buf ++ rec.fragment⟩ = (.ok (some h), ⟨x⟩) := by
          rw [hx1]; exact hb.front x
        refine ⟨recs, _, ?_, h2.buffer ⟨x⟩, hn', List.suffix_cons _ _, hx2, rfl⟩
        rw [messageLoop, St.bind_of_ok (messageStep_handshake h1 hty hne hg)]
        rfl
      · have hg : HandshakeBuffer.getMessage.run ⟨s.handshakeBuffer.buf ++ rec.fragment⟩ = (.ok none, ⟨s.handshakeBuffer.buf ++ rec.fragment⟩) :=
          hb.part hx ht'
        obtain ⟨recs1, s1, g1, g2, g3, g4, g5, g6⟩ := ih fuel (h2.buffer ⟨s.handshakeBuffer.buf ++ rec.fragment⟩) hn' hf.tail hp
          (by
            have h1 := congrArg List.length hx
            have h2 := List.length_pos_iff.mpr ht'
            rw [List.length_append] at h1
            show (s.handshakeBuffer.buf ++ rec.fragment).length < b.length
            omega)
          (by
            show countBytes r'.stream < fuel
            have : countBytes r'.stream + 5 ≤ countBytes s.reader.stream := hcons
            omega)
        refine ⟨recs1, s1, ?_, g2, g3, g4.trans (List.suffix_cons _ _), g5, g6⟩
        rw [messageLoop, St.bind_of_ok (messageStep_handshake h1 hty hne hg)]
        exact g1

/-- A message that is in the buffer or in the records to come is delivered, whatever the cuts; `bs` is what follows it. -/
theorem Took.readFramed (m : Mode) {h : Handshake} {b bs : Bytes} {s s' : TlsReader} {recs : List Record} (ht : Took s recs s')
    (hn : m = .debug → s.readCount.toNat + recs.length < 2 ^ 64) (hf : Filled recs) (hb : Framed b h) (hp : s.handshakeBuffer.buf ++ frags recs = b ++ bs) :
    ∃ recs1 s1, (readMessage m).run s = (.ok (.HandshakeMessage h), s1) ∧ Took s1 recs1 s' ∧ (m = .debug → s1.readCount.toNat + recs1.length < 2 ^ 64) ∧
      recs1 <:+ recs ∧ s1.handshakeBuffer.buf ++ frags recs1 = bs ∧ s1.decryptor = s.decryptor := by
  rcases Codec.split_front hp with ⟨x, hx1, hx2⟩ | ⟨t, ht', hx⟩
  · have hg : HandshakeBuffer.getMessage.run s.handshakeBuffer = (.ok (some h), ⟨x⟩) := by
      have : s.handshakeBuffer = ⟨b ++ x⟩ := by cases hq : s.handshakeBuffer; rw [hq] at hx1; rw [← hx1]
      rw [this]; exact hb.front x
    have h1 : (onBuffer HandshakeBuffer.getMessage).run s = (.ok (some h), { s with handshakeBuffer := ⟨x⟩ }) := by
      simp only [onBuffer, St.zoom_run, hg]
    refine ⟨recs, { s with handshakeBuffer := ⟨x⟩ }, ?_, ht.buffer _, hn, List.suffix_refl _, hx2, rfl⟩
    rw [readMessage, St.bind_of_ok h1]; rfl
  · have hg : HandshakeBuffer.getMessage.run s.handshakeBuffer = (.ok none, s.handshakeBuffer) := hb.part (buf := s.handshakeBuffer.buf) hx ht'
    have h1 : (onBuffer HandshakeBuffer.getMessage).run s = (.ok none, s) := by
      simp only [onBuffer, St.zoom_run, hg]
    obtain ⟨recs1, s1, g1, g2⟩ := Took.loopFramed m hb recs (s.reader.bytes + 1) ht hn hf hp
      (by
        have h1 := congrArg List.length hx
        have h2 := List.length_pos_iff.mpr ht'
        rw [List.length_append] at h1
        omega) (by rw [Reader.bytes_eq]; omega)
    refine ⟨recs1, s1, ?_, g2⟩
    rw [readMessage, St.bind_of_ok h1]
    exact g1

theorem Took.loopChange (m : Mode) {s' : TlsReader} (a b : UInt8) (recs : List Record) (fuel : Nat) :
    ∀ {s : TlsReader}, Took s (recs ++ [⟨.ChangeCipherSpecTy, a, b, [1]⟩]) s' → (m = .debug → s.readCount.toNat + (recs.length + 1) < 2 ^ 64) → Filled recs →
      (∀ x t, x ++ t = s.handshakeBuffer.buf ++ frags recs → HandshakeBuffer.getMessage.run ⟨x⟩ = (.ok none, ⟨x⟩)) → countBytes s.reader.stream < fuel →
    ∃ s1, (messageLoop m fuel).run s = (.ok .ChangeCipherSpecMessage, s1) ∧ Took s1 [] s' ∧ s1.handshakeBuffer.buf = s.handshakeBuffer.buf ++ frags recs := by
  induction recs generalizing fuel with
  | nil =>
    intro s ht hn hf hp hfu
    cases fuel with
    | zero => omega
    | succ fuel =>
      obtain ⟨r', h1, h2⟩ := ht.record (m := m) (fun hm => by have := hn hm; simpa using this)
      refine ⟨_, ?_, h2, by simp [frags]⟩
      have hstep : (messageStep m).run s = (.ok (some .ChangeCipherSpecMessage), { s with reader := r', readCount := s.readCount + 1 }) := by
        rw [messageStep, St.bind_of_ok h1]
        rfl
      rw [messageLoop, St.bind_of_ok hstep]
      rfl
  | cons rec recs ih =>
    intro s ht hn hf hp hfu
    cases fuel with
    | zero => omega
    | succ fuel =>
      obtain ⟨r', h1, h2⟩ := Took.record (m := m) (recs := recs ++ [⟨.ChangeCipherSpecTy, a, b, [1]⟩]) ht (fun hm => by have := hn hm; omega)
      have hcons := readRecord_consumes h1
      obtain ⟨hty, hne⟩ := hf rec (by simp)
      rw [frags, List.flatMap_cons, ← List.append_assoc] at hp
      have hg : HandshakeBuffer.getMessage.run ⟨s.handshakeBuffer.buf ++ rec.fragment⟩ = (.ok none, ⟨s.handshakeBuffer.buf ++ rec.fragment⟩) := hp _ _ rfl
      have hn' : m = .debug → ({ s with reader := r', readCount := s.readCount + 1 } : TlsReader).readCount.toNat + (recs.length + 1) < 2 ^ 64 := number_tail hn
      obtain ⟨s1, g1, g2, g3⟩ := ih fuel (h2.buffer ⟨s.handshakeBuffer.buf ++ rec.fragment⟩) hn' hf.tail hp
        (by
          show countBytes r'.stream < fuel
          have : countBytes r'.stream + 5 ≤ countBytes s.reader.stream := hcons
          omega)
      refine ⟨s1, ?_, g2, ?_⟩
      · rw [messageLoop, St.bind_of_ok (messageStep_handshake h1 hty hne hg)]
        exact g1
      · rw [g3, frags, frags, List.flatMap_cons, List.append_assoc]

/-- Handshake records that do not complete a message, then ChangeCipherSpec: it is delivered, and the bytes stay in the buffer. -/
theorem Took.readChange (m : Mode) {s s' : TlsReader} {a b : UInt8} {recs : List Record} (ht : Took s (recs ++ [⟨.ChangeCipherSpecTy, a, b, [1]⟩]) s')
    (hn : m = .debug → s.readCount.toNat + (recs.length + 1) < 2 ^ 64) (hf : Filled recs)
    (hp : ∀ x t, x ++ t = s.handshakeBuffer.buf ++ frags recs → HandshakeBuffer.getMessage.run ⟨x⟩ = (.ok none, ⟨x⟩)) :
    ∃ s1, (readMessage m).run s = (.ok .ChangeCipherSpecMessage, s1) ∧ Took s1 [] s' ∧ s1.handshakeBuffer.buf = s.handshakeBuffer.buf ++ frags recs := by
  have h1 : (onBuffer HandshakeBuffer.getMessage).run s = (.ok none, s) := by
    have hg := hp _ _ rfl
    have : (⟨s.handshakeBuffer.buf⟩ : HandshakeBuffer) = s.handshakeBuffer := rfl
    rw [this] at hg
    simp only [onBuffer, St.zoom_run, hg]
  obtain ⟨s1, g1, g2⟩ := Took.loopChange m a b recs (s.reader.bytes + 1) ht hn hf hp (by rw [Reader.bytes_eq]; omega)
  refine ⟨s1, ?_, g2⟩
  rw [readMessage, St.bind_of_ok h1]
  exact g1

end TlsReader

end Husk
