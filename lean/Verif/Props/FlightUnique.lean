import Verif.Props.Transcript
import Verif.Props.HandshakeGaps
/-! C27 is false of the code as stated, and what is true of it determines the flight: two readings of the same stream as a completed handshake agree. -/

namespace Husk

open Item Spec TlsReader TlsClient

theorem clear_inj {clear clear' : List (UInt8 × UInt8 × Bytes)} (h : ∀ r ∈ clear, r.2.2.length ≤ 2 ^ 14) (h' : ∀ r ∈ clear', r.2.2.length ≤ 2 ^ 14) {x x' : Bytes}
    (e : clear.flatMap (fun r => recordBytes 22 r.1 r.2.1 r.2.2) ++ (20 :: x) = clear'.flatMap (fun r => recordBytes 22 r.1 r.2.1 r.2.2) ++ (20 :: x')) :
    clear = clear' ∧ x = x' := by
  induction clear generalizing clear' with
  | nil =>
    cases clear' with
    | nil => exact ⟨rfl, by simpa using e⟩
    | cons r' clear' => simp [recordBytes] at e
  | cons r clear ih =>
    cases clear' with
    | nil => simp [recordBytes] at e
    | cons r' clear' =>
      obtain ⟨a, b, f⟩ := r
      obtain ⟨a', b', f'⟩ := r'
      have hl : f.length ≤ 2 ^ 14 := h _ (List.mem_cons_self ..)
      have hl' : f'.length ≤ 2 ^ 14 := h' _ (List.mem_cons_self ..)
      simp only [List.flatMap_cons, recordBytes, List.append_assoc, List.cons_append, List.nil_append, List.cons.injEq, true_and] at e
      obtain ⟨rfl, rfl, e⟩ := e
      obtain ⟨e1, e2⟩ := List.append_inj e (by simp)
      have hlen : f.length = f'.length := by
        have := congrArg beNat e1
        rw [beNat_beBytes, beNat_beBytes, Nat.mod_eq_of_lt (by omega), Nat.mod_eq_of_lt (by omega)] at this
        exact this
      obtain ⟨rfl, e3⟩ := List.append_inj e2 hlen
      obtain ⟨rfl, rfl⟩ := ih (fun r hr => h r (List.mem_cons_of_mem _ hr)) (fun r hr => h' r (List.mem_cons_of_mem _ hr)) e3
      exact ⟨rfl, rfl⟩

theorem flight_inj {S S' : Session} {x x' : Bytes} (hr : S.serverRandom.length = S'.serverRandom.length) (hs : S.sessionId.length ≤ 32) (hs' : S'.sessionId.length ≤ 32)
    (z : (serverHelloBytes S.serverRandom S.sessionId (S.ext ++ S.junk)).length < 2 ^ 24 + 4 ∧ (certificateBytes S.certs).length < 2 ^ 24 + 4 ∧ S.keyExchange.length < 2 ^ 24)
    (z' : (serverHelloBytes S'.serverRandom S'.sessionId (S'.ext ++ S'.junk)).length < 2 ^ 24 + 4 ∧ (certificateBytes S'.certs).length < 2 ^ 24 + 4 ∧ S'.keyExchange.length < 2 ^ 24)
    (e : S.flight ++ x = S'.flight ++ x') :
    S.serverRandom = S'.serverRandom ∧ S.sessionId = S'.sessionId ∧ S.ext ++ S.junk = S'.ext ++ S'.junk ∧ S.certs = S'.certs ∧ S.keyExchange = S'.keyExchange ∧ x = x' := by
  simp only [Session.flight, List.append_assoc] at e
  obtain ⟨⟨e1, e2, e3⟩, e4⟩ := serverHelloBytes_inj hr hs hs' z.1 z'.1 e
  have c1 := certificateBytes_inj z.2.1 z'.2.1 e4
  obtain ⟨e7, e8⟩ := handshakeBytes_inj z.2.2 z'.2.2 c1.2
  exact ⟨e1, e2, e3, c1.1, e7, by simpa [handshakeBytes] using e8⟩

/-- What C27 finds in the stream is determined by the stream: the records in clear, the messages of the server's first flight, and what follows them. -/
theorem C27_unique {m : Mode} {rd : Reader} {wr : Writer} {rng : Rng} {c : TlsClient} {S S' : Session} {clear clear' prot prot' : List (UInt8 × UInt8 × Bytes)}
    {a b a' b' : UInt8} {w w' pre pre' post post' : Bytes} (h : Completed m rd wr rng c S clear prot a b w pre post) (h' : Completed m rd wr rng c S' clear' prot' a' b' w' pre' post') :
    clear = clear' ∧ (a, b, w) = (a', b', w') ∧ pre = pre' ∧ post = post' ∧ S.flight = S'.flight ∧ S.random = S'.random ∧ S.serverRandom = S'.serverRandom ∧
      S.certs = S'.certs ∧ S.keyExchange = S'.keyExchange := by
  have e := h.stream.symm.trans h'.stream
  have e := ofBytes_inj (List.append_cancel_right e)
  obtain ⟨rfl, e1⟩ := clear_inj h.fits h'.fits (x := a :: b :: (beBytes 2 1 ++ [1]) ++ w) (x' := a' :: b' :: (beBytes 2 1 ++ [1]) ++ w') (by simpa [recordBytes] using e)
  have e2 := h.messages.symm.trans h'.messages
  obtain ⟨f1, f2, f3, f4, f5, rfl⟩ := flight_inj (h.lengths.2.1.trans h'.lengths.2.1.symm) h.lengths.2.2.1 h'.lengths.2.2.1 h.sizes h'.sizes e2
  obtain ⟨r, hr, _⟩ := h.random
  obtain ⟨r', hr', _⟩ := h'.random
  have hR := (List.append_inj (hr.symm.trans hr') (h.lengths.1.trans h'.lengths.1.symm)).1
  refine ⟨rfl, ?_, rfl, h.buffer.symm.trans h'.buffer, List.append_cancel_right e2, hR, f1, f4, f5⟩
  simpa using e1

/-- C27, the full statement: the whole of Finished is protected. -/
def ProperFlight (m : Mode) : Prop :=
  ∀ rd wr rng c, TlsClient.new m rd wr rng = (.ok (), c) → ∃ S clear prot a b protWire post, Completed m rd wr rng c S clear prot a b protWire [] post

/-- C27 is false of the code as stated: there are servers with which `new` succeeds though most of Finished came in clear, and no other reading of what they sent
makes it a proper flight. -/
theorem C27_not_proper (m : Mode) : ¬ ProperFlight m := by
  intro h
  obtain ⟨rd, wr, rng, c, S, clear, prot, a, b, w, pre, post, h1, h2, h3⟩ := C33_unprotected m
  obtain ⟨S', clear', prot', a', b', w', post', h4⟩ := h rd wr rng c h1
  have := (C27_unique h2 h4).2.2.1
  rw [this] at h3
  cases h3

/-! ### C29 -/

/-- The bytes `04 00 … 00` are not the encoding of a point of the curve. -/
theorem zero_not_point (P : Spec.P256.curve.Point) (hP : P ≠ 0) : Spec.P256.encode P ≠ 4 :: List.replicate 64 0 := by
  intro h
  obtain ⟨X, Y, e, h1, h2, h3⟩ := encode_valid P hP
  rw [e] at h
  have e' : beBytes 32 X ++ beBytes 32 Y = beBytes 32 0 ++ beBytes 32 0 := (List.cons.inj h).2
  obtain ⟨e1, e2⟩ := List.append_inj e' (by simp)
  have hp := P256.p_eq
  have hX := beBytes32_inj (by omega) (by decide) e1
  have hY := beBytes32_inj (by omega) (by decide) e2
  rw [hX, hY] at h3
  exact not_onCurve_zero h3

/-- C29, the full statement, seen from the server: whatever the client draws, the key it sends is a point of the curve, so that the server goes on. -/
def ServerCanGoOn (m : Mode) : Prop :=
  ∀ rd wr rng c, TlsClient.new m rd wr rng = (.ok (), c) → ∀ S clear prot a b protWire pre post, Completed m rd wr rng c S clear prot a b protWire pre post →
    ∃ P : Spec.P256.curve.Point, P ≠ 0 ∧ S.point = Spec.P256.encode P

/-- C29 is false of the code as stated: for some draws the key in the ClientKeyExchange is `04 00 … 00`, which no server that checks it accepts. -/
theorem C29_not_always (m : Mode) : ¬ ServerCanGoOn m := by
  intro h
  obtain ⟨random, block, hr, hb, hlt, h7⟩ : ∃ random block : Bytes, random.length = 32 ∧ block.length = 32 ∧ leNat block < P256.p ∧ ∀ i < 7, leNat block / 2 ^ (32 * i) % 256 = 0 :=
    ⟨List.replicate 32 0, 0 :: 1 :: List.replicate 30 0, by simp, by simp, by decide, by decide⟩
  have D : Draws (random ++ block) random block [] := ⟨⟨[], by simp, by simp⟩, hr, hb, hlt⟩
  have hV : ServerValues.Conforms { random := List.replicate 32 7, secret := 1 } :=
    ⟨by simp, by simp, by simp, by simp, by decide, by rw [one_nsmul]; exact Spec.P256.G_ne_zero, by simp⟩
  generalize ({ random := List.replicate 32 7, secret := 1 } : ServerValues) = V at hV
  obtain ⟨S, hS⟩ : ∃ S, S = V.session random (clientPoint block) := ⟨_, rfl⟩
  have hl : (finishedBytes S.serverVerify).length = 16 := by simp [finishedBytes, handshakeBytes, serverVerify_length D hV hS]
  have hf := flight_length hV hS
  obtain ⟨c, h1, h2⟩ := run_completed m ⟨[.data (serverWire S (chunks 16384 S.flight) (chunks 16384 (finishedBytes S.serverVerify)))]⟩
    {} ⟨random ++ block⟩ rfl D hV hS [] (finishedBytes S.serverVerify) rfl (by intro h; rw [h] at hl; cases hl)
    _ _ (by rw [List.append_nil]; exact cuts_exists _ (by omega)) (cuts_exists _ (by rw [hl]; decide)) [] (by rw [List.append_nil]; exact List.append_nil _)
  obtain ⟨P, hP, e⟩ := h _ _ _ _ h1 _ _ _ _ _ _ _ _ h2
  refine zero_not_point P hP ?_
  rw [← e, hS]
  show Spec.P256.encode (clientPoint block) = _
  rw [(C29_point block hb).mpr h7]
  rfl

end Husk
