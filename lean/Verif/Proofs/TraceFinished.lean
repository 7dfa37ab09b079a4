import Verif.Proofs.TraceFrame
/-! Reading the server's Finished, in two runs with different keys. -/

namespace Husk

open TSt Spec

namespace TlsReader

/-- What the records carry. -/
abbrev carried (rs : List (UInt8 × UInt8 × Bytes)) : Bytes := rs.flatMap fun r => r.2.2

/-- What the buffer yields, when it begins with Finished or with a part of it. -/
theorem finished_front {v x y : Bytes} {post : Bytes} (hv : v.length = 12) (he : x ++ y = finishedBytes v ++ post) :
    (16 ≤ x.length → ∃ z, HandshakeBuffer.getMessage.run ⟨x⟩ = (.ok (some (.finished ⟨v⟩)), ⟨z⟩)) ∧
      (x.length < 16 → HandshakeBuffer.getMessage.run ⟨x⟩ = (.ok none, ⟨x⟩)) := by
  have hl := (TlsClient.finished_eq v hv).2.2
  refine ⟨fun h => ?_, fun h => ?_⟩
  · refine ⟨x.drop 16, ?_⟩
    have := congrArg (List.take 16) he
    rw [List.take_append_of_le_length h, List.take_left' hl] at this
    have hx : x = finishedBytes v ++ x.drop 16 := by rw [← this, List.take_append_drop]
    conv_lhs => rw [hx]
    exact (framed_finished v hv).front _
  · have := congrArg (List.take x.length) he
    rw [List.take_left' rfl, List.take_append_of_le_length (by omega)] at this
    refine (framed_finished v hv).part (t := (finishedBytes v).drop x.length) ((congrArg (· ++ (finishedBytes v).drop x.length) this).trans (List.take_append_drop _ _)) fun e => ?_
    have := congrArg List.length e
    simp only [List.length_drop, List.length_nil, hl] at this
    omega

/-- A record of the handshake that both sides accept. -/
theorem stepT_both {k k' : Bytes} {s s' q q' : TlsReader} {a b : UInt8} {f f' : Bytes} {o o' : Option Handshake} {z z' : HandshakeBuffer}
    (h : BothOk (readRecordT .release (some k)) (readRecordT .release (some k')) s s' ⟨.HandshakeTy, a, b, f⟩ ⟨.HandshakeTy, a, b, f'⟩ q q') (hf : f ≠ []) (hff : f.length = f'.length)
    (hb : q.handshakeBuffer.buf.length = q'.handshakeBuffer.buf.length) (hg : HandshakeBuffer.getMessage.run ⟨q.handshakeBuffer.buf ++ f⟩ = (.ok o, z))
    (hg' : HandshakeBuffer.getMessage.run ⟨q'.handshakeBuffer.buf ++ f'⟩ = (.ok o', z')) (ho : o.isSome = o'.isSome) :
    BothOk (messageStepT .release (some k)) (messageStepT .release (some k')) s s' (o.map .HandshakeMessage) (o'.map .HandshakeMessage) { q with handshakeBuffer := z }
      { q' with handshakeBuffer := z' } := by
  have hf' : f' ≠ [] := fun e => hf (List.eq_nil_of_length_eq_zero (by rw [hff, e]; rfl))
  have e1 : f.isEmpty = false := by cases f with | nil => exact absurd rfl hf | cons => rfl
  have e2 : f'.isEmpty = false := by cases f' with | nil => exact absurd rfl hf' | cons => rfl
  refine h.andThen ((BothOk.see _ _ _).andThen ?_)
  dsimp only
  rw [e1, e2]
  refine (BothOk.test false _ _).andThen ?_
  rw [if_neg (by simp), if_neg (by simp), ← hff]
  refine (BothOk.see _ _ _).andThen ((BothOk.quiet (s' := { q with handshakeBuffer := ⟨q.handshakeBuffer.buf ++ f⟩ }) (t' := { q' with handshakeBuffer := ⟨q'.handshakeBuffer.buf ++ f'⟩ }) (a := ()) (b := ()) ?_ ?_).andThen ?_)
  · rfl
  · rfl
  refine BothOk.andThen (a := o) (b := o') (s1 := { q with handshakeBuffer := z }) (t1 := { q' with handshakeBuffer := z' }) ?_ ?_
  · refine (BothOk.get _ _).andThen ?_
    dsimp only
    rw [List.length_append, List.length_append, ← hb, ← hff]
    refine (BothOk.see _ _ _).andThen (BothOk.quiet ?_ ?_)
    · simp only [onBuffer, St.zoom_run, hg]
    · simp only [onBuffer, St.zoom_run, hg']
  · rw [← ho]
    refine (BothOk.see _ _ _).andThen ?_
    cases o <;> cases o' <;> exact ⟨[], rfl, rfl⟩

section
variable {k k' iv iv' v v' : Bytes} (hk : k.length = 32) (hk' : k'.length = 32) (li : iv.length = 12) (li' : iv'.length = 12) (hv : v.length = 12) (hv' : v'.length = 12)
include hk hk' li li' hv hv'

/-- The loop of `read_message` on the records of two servers' Finished messages. -/
theorem finishedLoop_both {post post' : Bytes} {l l' : List Sym} (prot : List (UInt8 × UInt8 × Bytes)) :
    ∀ (prot' : List (UInt8 × UInt8 × Bytes)) (fuel n : Nat) (w w' : Bytes) (s s' : TlsReader), s.decryptor = some (.chacha .release k) → s'.decryptor = some (.chacha .release k') →
      s.iv = some iv → s'.iv = some iv' → s.readCount = s'.readCount → s.readCount.toNat = n % 2 ^ 64 → Reader.Twin s.reader s'.reader →
      ProtectedStream k iv 22 n prot w → ProtectedStream k' iv' 22 n prot' w' → prot.map publicPart = prot'.map publicPart → (∀ r ∈ prot, r.2.2.length ≤ 2 ^ 14 ∧ r.2.2 ≠ []) →
      s.reader.stream = ofBytes w ++ l → s'.reader.stream = ofBytes w' ++ l' → s.handshakeBuffer.buf ++ carried prot = finishedBytes v ++ post →
      s'.handshakeBuffer.buf ++ carried prot' = finishedBytes v' ++ post' → s.handshakeBuffer.buf.length = s'.handshakeBuffer.buf.length → s.handshakeBuffer.buf.length < 16 →
      prot.length ≤ fuel →
      ∃ t t', BothOk (messageLoopT .release (some k) fuel) (messageLoopT .release (some k') fuel) s s' (.HandshakeMessage (.finished ⟨v⟩)) (.HandshakeMessage (.finished ⟨v'⟩)) t t' ∧
        Reader.Twin t.reader t'.reader := by
  induction prot with
  | nil =>
    intro prot' fuel n w w' s s' _ _ _ _ _ _ _ _ _ _ _ _ _ hb _ _ hlt _
    have := congrArg List.length hb
    simp only [carried, List.flatMap_nil, List.append_nil, List.length_append, (TlsClient.finished_eq v hv).2.2] at this
    omega
  | cons r prot ih =>
    intro prot' fuel n w w' s s' hd hd' hi hi' hc hn hr hp hp' hpub hfit hs hs' hb hb' hbl hlt hfuel
    have hE : ENC_RECORD_MAX_LEN = 18432 := rfl
    cases hp with
    | @cons _ a b f ct _ w hct ho hp =>
      cases prot' with
      | nil => cases hpub
      | cons r' prot' =>
        cases hp' with
        | @cons _ a' b' f' ct' _ w' hct' ho' hp' =>
          rw [List.map_cons, List.map_cons, List.cons.injEq] at hpub
          obtain ⟨hp1, hpub⟩ := hpub
          simp only [publicPart, Prod.mk.injEq] at hp1
          obtain ⟨rfl, rfl, hff⟩ := hp1
          obtain ⟨hf14, hf0⟩ := hfit (a, b, f) (by simp)
          dsimp only at hf14 hf0
          have hc1 := openMsg_length ho
          have hc2 := openMsg_length ho'
          have hcl : ct.length = ct'.length := by omega
          rw [← hn] at ho ho'
          have o1 : s.unprotect .HandshakeTy a b ct = .ok ⟨.HandshakeTy, a, b, f⟩ := unprotect_opened .HandshakeTy a b hd hk hi li hf14 ho
          have o2 : s'.unprotect .HandshakeTy a b ct' = .ok ⟨.HandshakeTy, a, b, f'⟩ := unprotect_opened .HandshakeTy a b hd' hk' hi' li' (by omega) (by rw [← hc]; exact ho')
          have u1 := (unprotectT_res (m := .release) (key := some k) (show HasKey .release (some k) s from hd) .HandshakeTy a b ct).trans o1
          have u2 := (unprotectT_res (m := .release) (key := some k') (show HasKey .release (some k') s' from hd') .HandshakeTy a b ct').trans o2
          have ut := unprotectT_trace (m := .release) hk hk' hc hi hi' (li.trans li'.symm) .HandshakeTy a b hcl (by omega) u1 u2
          obtain ⟨q, q', g1, g2, g3, g4⟩ := recordT_both (m := .release) (l := ofBytes w ++ l) (l' := ofBytes w' ++ l') hr hc (by omega) hcl
            (by rw [hs, ofBytes_append, List.append_assoc]; rfl) (by rw [hs', ofBytes_append, List.append_assoc]; rfl) u1 u2 ut (addU64_release _ _)
          have hb2 : (s.handshakeBuffer.buf ++ f) ++ carried prot = finishedBytes v ++ post := by rw [← hb]; simp [carried]
          have hb2' : (s'.handshakeBuffer.buf ++ f') ++ carried prot' = finishedBytes v' ++ post' := by rw [← hb']; simp [carried]
          have hlen : (s.handshakeBuffer.buf ++ f).length = (s'.handshakeBuffer.buf ++ f').length := by simp only [List.length_append, hbl, hff]
          obtain ⟨A, B⟩ := finished_front hv hb2
          obtain ⟨A', B'⟩ := finished_front hv' hb2'
          cases fuel with
          | zero => simp at hfuel
          | succ fuel =>
            by_cases hge : 16 ≤ (s.handshakeBuffer.buf ++ f).length
            · obtain ⟨z, hz⟩ := A hge
              obtain ⟨z', hz'⟩ := A' (by omega)
              have st := stepT_both g1 hf0 hff hbl hz hz' rfl
              exact ⟨_, _, st.andThen ⟨[], rfl, rfl⟩, g2⟩
            · have st := stepT_both g1 hf0 hff hbl (B (by omega)) (B' (by omega)) rfl
              obtain ⟨t, t', h1, h2⟩ := ih prot' fuel (n + 1) w w' { s with reader := q, readCount := s.readCount + 1, handshakeBuffer := ⟨s.handshakeBuffer.buf ++ f⟩ } { s' with reader := q', readCount := s.readCount + 1, handshakeBuffer := ⟨s'.handshakeBuffer.buf ++ f'⟩ }
                hd hd' hi hi' rfl (by
                  show (s.readCount + 1).toNat = _
                  rw [UInt64.toNat_add, hn]; show (n % 2 ^ 64 + 1) % 2 ^ 64 = _; omega)
                g2 hp hp' hpub (fun r hr => hfit r (List.mem_cons_of_mem _ hr)) g3 g4 hb2 hb2' hlen (by show (s.handshakeBuffer.buf ++ f).length < 16; omega) (by simp at hfuel; omega)
              exact ⟨t, t', st.andThen h1, h2⟩

end

end TlsReader

end Husk
