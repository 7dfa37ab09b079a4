import Verif.Proofs.TraceFailRead
/-! Two handshakes on the same incoming bytes, part by part (C114). -/

namespace Husk

open TSt Spec TlsReader TlsClient

/-! ### The server's second flight -/

namespace TlsReader

variable {k k' : Bytes}

theorem readMessage_bytes {m : Mode} {s s' : TlsReader} {msg : Message} (h : (readMessage m).run s = (.ok msg, s')) : s'.reader.bytes ≤ s.reader.bytes := by
  obtain ⟨recs, h1, -⟩ := readMessage_inv h
  clear h
  induction h1 with
  | nil e => rw [Reader.bytes_eq, Reader.bytes_eq, e]
  | cons _ e _ _ _ _ _ ih =>
    refine Nat.le_trans ih ?_
    rw [Reader.bytes_eq, Reader.bytes_eq, e, countBytes_append]
    omega

theorem Unless.mono {R S : α → β → Prop} {x : TSt TlsReader α} {y : TSt TlsReader β} {s s' : TlsReader} (h : Unless k k' R x y s s') (hr : ∀ a b, R a b → S a b) : Unless k k' S x y s s' := by
  rcases h with h | h | ⟨h1, h2⟩
  · exact Or.inl h
  · exact Or.inr (Or.inl h)
  · refine Or.inr (Or.inr ⟨h1, ?_⟩)
    revert h2
    cases (x.run s).2.1 <;> cases (y.run s').2.1 <;> first | exact hr _ _ | exact id

/-- A call on whose outcome the reader has no influence. -/
theorem Unless.same {R : α → β → Prop} {x : TSt TlsReader α} {y : TSt TlsReader β} {s s' : TlsReader} (h : Alike (fun _ _ => True) R x y) : Unless k k' R x y s s' :=
  Or.inr (Or.inr ⟨(h s s' trivial).1, (h s s' trivial).2.1⟩)

theorem Awaiting.expect {s s' : TlsReader} (h : Awaiting k k' s s') (hb : s.reader.bytes < 2 ^ 64) (pick : Handshake → Option α) :
    Unless k k' Eq (expectT .release (some k) pick) (expectT .release (some k') pick) s s' := by
  have keep1 : ∀ (k : Bytes) (msg : Message), KeepsPast k (TSt.see (.index (kindOf msg)) >>= fun _ => match msg with
      | .HandshakeMessage h => (Pure.pure h : TSt TlsReader Handshake)
      | .AlertMessage _ => quiet (St.err .AlertReceived)
      | _ => quiet (St.err .UnexpectedMessage)) := by
    intro k msg
    refine .bind (.see _) fun _ => ?_
    cases msg <;> exact .lift _
  have keep2 : ∀ (k : Bytes) (h : Handshake), KeepsPast k (TSt.see (.index (handshakeKind h)) >>= fun _ => match pick h with
      | some data => (Pure.pure data : TSt TlsReader α)
      | none => quiet (St.err .UnexpectedMessage)) := by
    intro k h
    refine .bind (.see _) fun _ => ?_
    cases pick h <;> exact .lift _
  refine Unless.bind (R := Eq) ?_ (keep2 k) (keep2 k') fun hs _ s1 s1' e _ _ => ?_
  · refine Unless.bind (h.readMessage hb) (keep1 k) (keep1 k') fun msg _ s1 s1' e _ _ => ?_
    subst e
    refine Unless.same (Beside.self' _ fun s t => ?_)
    cases msg <;> exact ⟨rfl, rfl⟩
  · subst e
    refine Unless.same (Beside.self' _ fun s t => ?_)
    cases pick hs <;> exact ⟨rfl, rfl⟩

/-- A call that ends otherwise than with an error, or after which a protected record has been accepted. -/
def Left (k : Bytes) (o : Res α × TlsReader) : Prop := (∀ e, o.1 ≠ .err e) ∨ Past k o.2

/-- `readFinishedT`, on the reader. -/
def finishT (m : Mode) (master readKey msgs : Bytes) (finished : Handshake) : TSt TlsReader Unit := do
  readChangeCipherSpecT m none
  quiet (setDecryptor (.chacha m readKey))
  let serverFinished ← expectT m (some readKey) pickFinished
  ofTr (checkFinishedT m master msgs finished serverFinished)

theorem onReaderT_bind (x : TSt TlsReader α) (f : α → TSt TlsReader β) (c : TlsClient) : (onReaderT x >>= fun a => onReaderT (f a)).run c = (onReaderT (x >>= f)).run c := by
  have e : ∀ {α : Type} (x : TSt TlsReader α) (c : TlsClient), (onReaderT x).run c = ((x.run c.reader).1, (x.run c.reader).2.1, { c with reader := (x.run c.reader).2.2 }) := fun _ _ => rfl
  rw [bind_run, e, e (x >>= f), bind_run]
  rcases x.run c.reader with ⟨u, r, s⟩
  cases r with
  | ok a => simp only [e]
  | err _ => rfl
  | panic => rfl
  | diverge => rfl

theorem readFinishedT_eq (m : Mode) (master readKey msgs : Bytes) (finished : Handshake) (c : TlsClient) :
    (readFinishedT m master readKey msgs finished).run c = (onReaderT (finishT m master readKey msgs finished)).run c := by
  have b : ∀ {α β : Type} (x : TSt TlsReader α) (f : α → TSt TlsReader β), (onReaderT x >>= fun a => onReaderT (f a)) = onReaderT (x >>= f) := by
    intro α β x f
    have : ∀ (y z : TSt TlsClient β), (∀ c, y.run c = z.run c) → y = z := by
      intro y z h
      cases y; cases z
      congr 1
      exact funext h
    exact this _ _ (onReaderT_bind x f)
  unfold finishT
  rw [← b, ← b, ← b]
  rfl

theorem finish_alike {cr cr' pub pub' : Bytes} {f f' : ServerFlight} (hc : cr.length = 32) (hc' : cr'.length = 32) (hf : FlightFit f pub) (hf' : FlightFit f' pub')
    (hm : (serverMessages f).length = (serverMessages f').length) {s s' : TlsReader} (h : Beside s s') (hi : s.iv = some (f.keys cr).serverIv) (hi' : s'.iv = some (f'.keys cr').serverIv)
    (hb : s.reader.bytes < 2 ^ 64) {x y : TSt TlsReader Unit}
    (hx : x = finishT .release (f.master cr) (f.keys cr).serverKey (f.messages cr pub) (.finished ⟨f.clientVerify cr pub⟩))
    (hy : y = finishT .release (f'.master cr') (f'.keys cr').serverKey (f'.messages cr' pub') (.finished ⟨f'.clientVerify cr' pub'⟩)) :
    Left (f.keys cr).serverKey (x.run s).2 ∨ Left (f'.keys cr').serverKey (y.run s').2 ∨ ((x.run s).1 = (y.run s').1 ∧ SameOutcome (fun _ _ => True) (x.run s).2.1 (y.run s').2.1) := by
  obtain ⟨k1, k2, k3, k4⟩ := hf.keys_length hc
  obtain ⟨k1', k2', k3', k4'⟩ := hf'.keys_length hc'
  subst hx hy
  unfold finishT
  obtain ⟨g1, g2, g3⟩ := Beside.readChange (m := .release) s s' h
  have ag := (readChangeCipherSpecT_agrees (m := .release) (key := none) s h.1).1
  have ag' := (readChangeCipherSpecT_agrees (m := .release) (key := none) s' h.clear').1
  rw [bind_run _ _ s, bind_run _ _ s']
  rcases e1 : (readChangeCipherSpecT .release none).run s with ⟨u, r, s1⟩
  rcases e2 : (readChangeCipherSpecT .release none).run s' with ⟨u', r', s1'⟩
  rw [e1] at ag
  rw [e2] at ag'
  rw [e1, e2] at g1 g2 g3
  have g1 : u = u' := g1
  subst g1
  cases r <;> cases r' <;> first | exact absurd g2 id | skip
  rotate_left
  · exact Or.inr (Or.inr ⟨rfl, g2⟩)
  · exact Or.inl (Or.inl (by simp))
  · exact Or.inl (Or.inl (by simp))
  have m1 := readChangeCipherSpec_inv ag.symm
  have m2 := readChangeCipherSpec_inv ag'.symm
  have A : Awaiting (f.keys cr).serverKey (f'.keys cr').serverKey { s1 with decryptor := some (.chacha .release (f.keys cr).serverKey), readCount := 0 }
      { s1' with decryptor := some (.chacha .release (f'.keys cr').serverKey), readCount := 0 } :=
    { key := rfl, key' := rfl, len := k2, len' := k2', ivs := ⟨_, _, (readMessage_same m1).2.trans hi, (readMessage_same m2).2.trans hi', k4, k4'⟩, count := rfl, count' := rfl,
      reader := g3.reader.symm, buffer := g3.buffer.symm }
  have d1 : s1.decryptor = none := g3.1
  have d1' : s1'.decryptor = none := g3.clear'
  have q1 : (setDecryptor (.chacha .release (f.keys cr).serverKey)).run s1 = (.ok (), { s1 with decryptor := some (.chacha .release (f.keys cr).serverKey), readCount := 0 }) := by
    unfold setDecryptor; simp only [d1]
  have q2 : (setDecryptor (.chacha .release (f'.keys cr').serverKey)).run s1' = (.ok (), { s1' with decryptor := some (.chacha .release (f'.keys cr').serverKey), readCount := 0 }) := by
    unfold setDecryptor; simp only [d1']
  dsimp only
  rw [bind_of_ok (t := []) (a := ()) (s' := { s1 with decryptor := some (.chacha .release (f.keys cr).serverKey), readCount := 0 }) (by rw [← q1]; rfl),
    bind_of_ok (t := []) (a := ()) (s' := { s1' with decryptor := some (.chacha .release (f'.keys cr').serverKey), readCount := 0 }) (by rw [← q2]; rfl)]
  have hb1 : s1.reader.bytes < 2 ^ 64 := Nat.lt_of_le_of_lt (readMessage_bytes m1) hb
  have E := A.expect hb1 pickFinished
  generalize ({ s1 with decryptor := some (.chacha .release (f.keys cr).serverKey), readCount := 0 } : TlsReader) = t at A E
  generalize ({ s1' with decryptor := some (.chacha .release (f'.keys cr').serverKey), readCount := 0 } : TlsReader) = t' at A E
  have V := fun vd hv => C105_verdict .release hc hf vd hv
  have V' := fun vd hv => C105_verdict .release hc' hf' vd hv
  have T := fun vd hv e => C105_check .release hc hc' hf hf' hm vd vd hv hv e
  have L : ∀ vd u, ((expectT .release (some (f.keys cr).serverKey) pickFinished).run t).2 = (.ok vd, u) → vd.data.length = 12 := by
    intro vd u hu
    rw [(finishedT_agrees t A.key).1] at hu
    exact (delivered_wf (expectFinished_iff.mp hu)).1
  generalize hF : (fun vd => checkFinishedT .release (f.master cr) (f.messages cr pub) (.finished ⟨f.clientVerify cr pub⟩) vd) = F
  generalize hF' : (fun vd => checkFinishedT .release (f'.master cr') (f'.messages cr' pub') (.finished ⟨f'.clientVerify cr' pub'⟩) vd) = F'
  have V : ∀ vd : VerifyData, vd.data.length = 12 → (F vd).res = if vd.data = f.serverVerify cr pub then .ok () else .err .DecryptError := fun vd hv => by rw [← hF]; exact V vd hv
  have V' : ∀ vd : VerifyData, vd.data.length = 12 → (F' vd).res = if vd.data = f'.serverVerify cr' pub' then .ok () else .err .DecryptError := fun vd hv => by rw [← hF']; exact V' vd hv
  have T : ∀ vd : VerifyData, vd.data.length = 12 → (vd.data = f.serverVerify cr pub ↔ vd.data = f'.serverVerify cr' pub') → (F vd).trace = (F' vd).trace :=
    fun vd hv e => by rw [← hF, ← hF']; exact T vd hv e
  have r1 : (fun vd => (ofTr (checkFinishedT .release (f.master cr) (f.messages cr pub) (.finished ⟨f.clientVerify cr pub⟩) vd) : TSt TlsReader Unit)) = fun vd => ofTr (F vd) := by rw [← hF]
  have r2 : (fun vd => (ofTr (checkFinishedT .release (f'.master cr') (f'.messages cr' pub') (.finished ⟨f'.clientVerify cr' pub'⟩) vd) : TSt TlsReader Unit)) = fun vd => ofTr (F' vd) := by
    rw [← hF']
  rw [r1, r2]
  clear r1 r2 hF hF'
  have gone : ∀ {k : Bytes} {x : TSt TlsReader VerifyData} {F : VerifyData → Tr Unit} {t : TlsReader}, Gone k (x.run t).2 → Left k ((x >>= fun vd => ofTr (F vd)).run t).2 := by
    intro k x F t h
    rw [bind_run]
    rcases hx : x.run t with ⟨u, r, s1⟩
    rw [hx] at h
    rcases h with (h | h) | h
    · cases h; exact Or.inl (by simp)
    · cases h; exact Or.inl (by simp)
    · cases r with
      | ok a => exact Or.inr h
      | err e => exact Or.inr h
      | panic => exact Or.inr h
      | diverge => exact Or.inr h
  rcases E with E | E | ⟨E1, E2⟩
  · exact Or.inl (gone E)
  · exact Or.inr (Or.inl (gone E))
  rw [bind_run _ _ t, bind_run _ _ t']
  rcases x1 : (expectT .release (some (f.keys cr).serverKey) pickFinished).run t with ⟨w, r, s2⟩
  rcases x2 : (expectT .release (some (f'.keys cr').serverKey) pickFinished).run t' with ⟨w', r', s2'⟩
  rw [x1] at L
  rw [x1, x2] at E1 E2
  have E1 : w = w' := E1
  subst E1
  cases r <;> cases r' <;> first | exact absurd E2 id | skip
  rotate_left
  · exact Or.inr (Or.inr ⟨rfl, E2⟩)
  · exact Or.inl (Or.inl (by simp))
  · exact Or.inl (Or.inl (by simp))
  rename_i vd vd'
  have E2 : vd = vd' := E2
  subst E2
  have hv := L vd s2 rfl
  by_cases h1 : vd.data = f.serverVerify cr pub
  · left; left
    intro e he
    have : (F vd).res = .err e := he
    rw [V vd hv, if_pos h1] at this
    cases this
  by_cases h2 : vd.data = f'.serverVerify cr' pub'
  · right; left; left
    intro e he
    have : (F' vd).res = .err e := he
    rw [V' vd hv, if_pos h2] at this
    cases this
  refine Or.inr (Or.inr ⟨?_, ?_⟩)
  · show u ++ ([] ++ (w ++ (F vd).trace)) = u ++ ([] ++ (w ++ (F' vd).trace))
    rw [T vd hv ⟨fun h => absurd h h1, fun h => absurd h h2⟩]
  · show SameOutcome _ (F vd).res (F' vd).res
    rw [V vd hv, V' vd hv, if_neg h1, if_neg h2]
    exact rfl

end TlsReader

end Husk

namespace Husk

open TSt Spec TlsReader TlsClient

/-! ### The alert -/

/-- The transports will treat the coming writes alike. -/
def LikeWriters (c c' : TlsClient) : Prop := Writer.Twin c.writer.writer c'.writer.writer

namespace TlsWriter

theorem writeAlertT_clear {m : Mode} (a : Alert) : Alike ClearTwin (fun _ _ => True) (writeAlertT m none a) (writeAlertT m none a) :=
  Alike.bind (R := (· = ·)) (Alike.lift (by cases (TlsItem.write a : Res Bytes) <;> simp [SameOutcome])) fun d d' e => by
    subst e
    exact Alike.bind (Alike.see rfl) fun _ _ _ => writeChunksT_clear _ _ _ rfl

end TlsWriter

namespace TlsClient

variable {m : Mode}

theorem sendTlsAlertT_like {key key' : Option Bytes} {k : TlsErrorKind} {c c' : TlsClient} (h : LikeWriters c c')
    (hw : k ≠ .IoFailure → AlikeAt LikeWriters (fun _ _ => True) (onWriterT (TlsWriter.writeAlertT m key (Alert.fromTlsErr k))) (onWriterT (TlsWriter.writeAlertT m key' (Alert.fromTlsErr k))) c c') :
    AlikeAt LikeWriters Eq (sendTlsAlertT m key k) (sendTlsAlertT m key' k) c c' := by
  by_cases hk : k = .IoFailure
  · subst hk
    exact ⟨rfl, rfl, h⟩
  · obtain ⟨g1, g2, g3⟩ := hw hk
    unfold AlikeAt
    rw [sendTlsAlertT_run key hk, sendTlsAlertT_run key' hk]
    rcases hx : (onWriterT (TlsWriter.writeAlertT m key (Alert.fromTlsErr k))).run c with ⟨u, r, d⟩
    rcases hy : (onWriterT (TlsWriter.writeAlertT m key' (Alert.fromTlsErr k))).run c' with ⟨u', r', d'⟩
    rw [hx, hy] at g1 g2 g3
    have g1 : u = u' := g1
    subst g1
    cases r <;> cases r' <;> first | exact absurd g2 id | skip
    · exact ⟨rfl, rfl, g3⟩
    · have g2 : _ = _ := g2
      subst g2
      exact ⟨rfl, rfl, g3⟩
    · exact ⟨rfl, trivial, g3⟩
    · exact ⟨rfl, trivial, g3⟩

theorem orAlertT_err {key : Option Bytes} {x : TSt TlsClient α} {c d : TlsClient} {u : List Obs} {k : TlsErrorKind} (h : x.run c = (u, .err k, d)) :
    (orAlertT m key x).run c = (u ++ [.branch false] ++ ((sendTlsAlertT m key k >>= fun k' => (quiet (St.err k') : TSt TlsClient α)).run d).1,
      ((sendTlsAlertT m key k >>= fun k' => (quiet (St.err k') : TSt TlsClient α)).run d).2) := by
  unfold orAlertT
  dsimp only
  rw [h]

theorem orAlertT_ok {key : Option Bytes} {x : TSt TlsClient α} {c d : TlsClient} {u : List Obs} {a : α} (h : x.run c = (u, .ok a, d)) :
    (orAlertT m key x).run c = (u, .ok a, d) := by
  unfold orAlertT
  dsimp only
  rw [h]

/-- A call that returned, returned without the alert. -/
theorem orAlertT_value {key : Option Bytes} {x : TSt TlsClient α} {c d : TlsClient} {u : List Obs} {a : α} (h : (orAlertT m key x).run c = (u, .ok a, d)) :
    x.run c = (u, .ok a, d) := by
  rcases hx : x.run c with ⟨v, r, e⟩
  cases r with
  | ok b => rw [orAlertT_ok hx] at h; exact h
  | panic => unfold orAlertT at h; dsimp only at h; rw [hx] at h; cases h
  | diverge => unfold orAlertT at h; dsimp only at h; rw [hx] at h; cases h
  | err k =>
    rw [orAlertT_err hx, bind_run _ _ e] at h
    rcases hs : (sendTlsAlertT m key k).run e with ⟨w, q, e'⟩
    rw [hs] at h
    cases q <;> cases h

/-- A part of the handshake, with the alert. -/
theorem orAlertT_like {P : TlsClient → TlsClient → Prop} {R : α → β → Prop} {key key' : Option Bytes} {x : TSt TlsClient α} {y : TSt TlsClient β} {c c' : TlsClient} (h : AlikeAt P R x y c c')
    (hq : ∀ d d', P d d' → LikeWriters d d')
    (hw : ∀ k d d', (x.run c).2 = (.err k, d) → (y.run c').2 = (.err k, d') → P d d' → k ≠ .IoFailure →
      AlikeAt LikeWriters (fun _ _ => True) (onWriterT (TlsWriter.writeAlertT m key (Alert.fromTlsErr k))) (onWriterT (TlsWriter.writeAlertT m key' (Alert.fromTlsErr k))) d d') :
    AlikeAt LikeWriters R (orAlertT m key x) (orAlertT m key' y) c c' := by
  obtain ⟨h1, h2, h3⟩ := h
  rcases hx : x.run c with ⟨u, r, d⟩
  rcases hy : y.run c' with ⟨u', r', d'⟩
  rw [hx, hy] at h1 h2 h3
  rw [hx, hy] at hw
  have h1 : u = u' := h1
  subst h1
  cases r <;> cases r' <;> first | exact absurd h2 id | skip
  · unfold AlikeAt
    rw [orAlertT_ok hx, orAlertT_ok hy]
    exact ⟨rfl, h2, hq _ _ h3⟩
  · rename_i k k'
    have h2 : k = k' := h2
    subst h2
    obtain ⟨g1, g2, g3⟩ := sendTlsAlertT_like (m := m) (key := key) (key' := key') (k := k) (hq _ _ h3) (hw k d d' rfl rfl h3)
    unfold AlikeAt
    rw [orAlertT_err hx, orAlertT_err hy, bind_run _ _ d, bind_run _ _ d']
    rcases ha : (sendTlsAlertT m key k).run d with ⟨v, a, e⟩
    rcases hb : (sendTlsAlertT m key' k).run d' with ⟨v', b, e'⟩
    rw [ha, hb] at g1 g2 g3
    have g1 : v = v' := g1
    subst g1
    cases a <;> cases b <;> first | exact absurd g2 id | skip
    · have g2 : _ = _ := g2
      subst g2
      exact ⟨rfl, rfl, g3⟩
    · exact ⟨rfl, g2, g3⟩
    · exact ⟨rfl, trivial, g3⟩
    · exact ⟨rfl, trivial, g3⟩
  all_goals
    unfold AlikeAt orAlertT
    dsimp only
    rw [hx, hy]
    exact ⟨rfl, trivial, hq _ _ h3⟩

/-! ### The first flights -/

/-- Two generators that give, after 32 bytes for the ClientHello, the same number of blocks that are rejected before the first that is a number below p. -/
def SameDraws (g g' : Rng) : Prop := ∃ random random' block block' more more' : Bytes, ∃ blocks blocks' : List Bytes,
  g.bytes = random ++ (blocks.flatten ++ block ++ more) ∧ g'.bytes = random' ++ (blocks'.flatten ++ block' ++ more') ∧ random.length = 32 ∧ random'.length = 32 ∧
    (∀ b ∈ blocks, b.length = 32 ∧ P256.p ≤ leNat b) ∧ (∀ b ∈ blocks', b.length = 32 ∧ P256.p ≤ leNat b) ∧ blocks.length = blocks'.length ∧
    block.length = 32 ∧ block'.length = 32 ∧ leNat block < P256.p ∧ leNat block' < P256.p

theorem hello_like {rd : Reader} {wr wr' : Writer} {g g' : Rng} {cr cr' rest rest' : Bytes} (hg : g.bytes = cr ++ rest) (hg' : g'.bytes = cr' ++ rest') (hl : cr.length = 32) (hl' : cr'.length = 32)
    (hw : Writer.Twin wr wr') : AlikeAt LikeWriters (fun _ _ => True) (orAlertT m none (sendHelloT m)) (orAlertT m none (sendHelloT m)) (fresh rd wr g) (fresh rd wr' g') ∧
      ∀ u a b c c', (sendHelloT m).run (fresh rd wr g) = (u, .ok a, c) → (sendHelloT m).run (fresh rd wr' g') = (u, .ok b, c') →
        a = (cr, helloMessage cr) ∧ b = (cr', helloMessage cr') ∧ TlsWriter.ClearTwin c.writer c'.writer ∧ c.writer.writeCount = 1 ∧
        c = { fresh rd wr g with rng := ⟨rest⟩, writer := c.writer } ∧ c' = { fresh rd wr' g' with rng := ⟨rest'⟩, writer := c'.writer } := by
  have fill : ∀ {wr : Writer} {g : Rng} {cr rest : Bytes}, g.bytes = cr ++ rest → cr.length = 32 → (onRng (Rng.fillBytes 32)).run (fresh rd wr g) = (.ok cr, { fresh rd wr g with rng := ⟨rest⟩ }) := by
    intro wr g cr rest hg hl
    have e := onRng_ok (c := fresh rd wr g) (Ecdhe.fillBytes_ok (r := g) (n := 32) (by rw [hg, List.length_append]; omega))
    rw [hg, List.take_left' hl, List.drop_left' hl] at e
    exact e
  obtain ⟨e1, e2, e3⟩ := clientHello_eq cr hl
  obtain ⟨e1', e2', e3'⟩ := clientHello_eq cr' hl'
  have hb : BeforeKeys { fresh rd wr g with rng := ⟨rest⟩ } { fresh rd wr' g' with rng := ⟨rest'⟩ } := ⟨⟨rfl, rfl, rfl, rfl, rfl, hw⟩, rfl, rfl⟩
  have A : AlikeAt BeforeKeys (fun _ _ => True) (sendHelloT m) (sendHelloT m) (fresh rd wr g) (fresh rd wr' g') := by
    unfold sendHelloT
    refine BothOk.bind (BothOk.quiet (fill hg hl) (fill hg' hl')) ?_
    rw [hl, hl']
    refine BothOk.bind (BothOk.see _ _ _) (BothOk.bind (BothOk.quiet (by rw [e1]; rfl) (by rw [e1']; rfl)) ?_)
    exact step (fun _ _ h => h) (onWriterT_before (TlsWriter.writeHandshakeT_clear ⟨_, _, e2, e2', e3.trans e3'.symm⟩)) hb fun _ _ _ _ _ h => ⟨rfl, trivial, h⟩
  have io : ∀ {wr : Writer} {g : Rng} {cr rest : Bytes}, g.bytes = cr ++ rest → cr.length = 32 → ∀ k d, ((sendHelloT m).run (fresh rd wr g)).2 = (.err k, d) → k = .IoFailure := by
    intro wr g cr rest hg hl k d h
    rw [sendHelloT_follows m _ rfl] at h
    rcases sendHello_cases m (fresh rd wr g) rfl rfl with ⟨q, -⟩ | ⟨cr, rest, hr, hl, ⟨w1, q, -⟩ | ⟨w1, n, q, -⟩⟩
    · rw [q] at h; cases h
    · rw [q] at h; cases h
    · rw [q] at h; cases h; rfl
  refine ⟨orAlertT_like A (fun _ _ h => h.writer.writer) fun k d d' h _ _ hk => absurd (io hg hl k d h) hk, ?_⟩
  intro u a b c c' h h'
  have val : ∀ {wr : Writer} {g : Rng} {cr rest : Bytes} {u a c}, g.bytes = cr ++ rest → cr.length = 32 → (sendHelloT m).run (fresh rd wr g) = (u, .ok a, c) →
      a = (cr, helloMessage cr) ∧ c.writer.writeCount = 1 ∧ c = { fresh rd wr g with rng := ⟨rest⟩, writer := c.writer } := by
    intro wr g cr rest u a c hg hl h
    have h2 := sendHelloT_follows m (fresh rd wr g) rfl
    rw [h] at h2
    rcases sendHello_cases m (fresh rd wr g) rfl rfl with ⟨q, -⟩ | ⟨cr2, rest2, hr, hl2, ⟨w1, q, q2⟩ | ⟨w1, n, q, -⟩⟩
    · rw [q] at h2; cases h2
    · rw [q] at h2
      cases h2
      have hr : g.bytes = cr2 ++ rest2 := hr
      obtain ⟨rfl, rfl⟩ := List.append_inj (hg.symm.trans hr) (hl.trans hl2.symm)
      exact ⟨rfl, by show w1.writeCount = 1; rw [q2.count]; rfl, rfl⟩
    · rw [q] at h2; cases h2
  obtain ⟨a1, a2, a3⟩ := val hg hl h
  obtain ⟨b1, b2, b3⟩ := val hg' hl' h'
  obtain ⟨-, -, A3⟩ := A
  rw [h, h'] at A3
  exact ⟨a1, b1, A3.writer, a2, a3, b3⟩

/-- Two clients that have read the same, with writers and generators of their own. -/
structure Abreast (w w' : TlsWriter) (c c' : TlsClient) : Prop where
  reader : c.reader = c'.reader
  writer : c.writer = w
  writer' : c'.writer = w'

theorem Abreast.read {w w' : TlsWriter} {g g' : Rng} (x : TSt TlsReader α) :
    Alike (fun c c' => Abreast w w' c c' ∧ c.rng = g ∧ c'.rng = g') Eq (onReaderT x) (onReaderT x) := by
  intro c c' ⟨h, h1, h2⟩
  unfold onReaderT zoom
  dsimp only
  rw [h.reader]
  refine ⟨rfl, ?_, ⟨⟨rfl, h.writer, h.writer'⟩, h1, h2⟩⟩
  generalize (x.1 c'.reader).2.1 = r
  cases r <;> simp [SameOutcome]

theorem Abreast.read' {w w' : TlsWriter} (x : TSt TlsReader α) : Alike (Abreast w w') Eq (onReaderT x) (onReaderT x) := by
  intro c c' h
  obtain ⟨h1, h2, h3⟩ := Abreast.read (g := c.rng) (g' := c'.rng) x c c' ⟨h, rfl, rfl⟩
  exact ⟨h1, h2, h3.1⟩

/-- The key exchange. -/
theorem Abreast.computeKeys {w w' : TlsWriter} {data block block' more more' : Bytes} {blocks blocks' : List Bytes} (hb : ∀ b ∈ blocks, b.length = 32 ∧ P256.p ≤ leNat b)
    (hb' : ∀ b ∈ blocks', b.length = 32 ∧ P256.p ≤ leNat b) (hn : blocks.length = blocks'.length) (hl : block.length = 32) (hl' : block'.length = 32) (hp : leNat block < P256.p)
    (hp' : leNat block' < P256.p) {c c' : TlsClient} (h : Abreast w w' c c') (hg : c.rng = ⟨blocks.flatten ++ block ++ more⟩) (hg' : c'.rng = ⟨blocks'.flatten ++ block' ++ more'⟩) :
    AlikeAt (Abreast w w') (fun k k' => k.2.length = k'.2.length) (computeKeysT .release data) (computeKeysT .release data) c c' := by
  have fl : ∀ {l : List Bytes}, (∀ b ∈ l, b.length = 32 ∧ P256.p ≤ leNat b) → l.flatten.length = 32 * l.length := by
    intro l h
    induction l with
    | nil => rfl
    | cons b bs ih =>
      have := ih fun c hc => h c (List.mem_cons_of_mem _ hc)
      have h := (h b (List.mem_cons_self ..)).1
      simp only [List.length_cons, List.flatten_cons, List.length_append]
      omega
  have run : ∀ {c : TlsClient}, (onRng (Ecdhe.computeKeys .release data)).run c = (((Ecdhe.computeKeys .release data).run c.rng).1, { c with rng := ((Ecdhe.computeKeys .release data).run c.rng).2 }) := fun {c} => rfl
  unfold AlikeAt TlsClient.computeKeysT
  dsimp only
  rw [run, run]
  refine (?_ : (Ecdhe.computeKeysT .release data c.rng).trace = (Ecdhe.computeKeysT .release data c'.rng).trace ∧
    SameOutcome (fun k k' => k.2.length = k'.2.length) ((Ecdhe.computeKeys .release data).run c.rng).1 ((Ecdhe.computeKeys .release data).run c'.rng).1).elim fun a b => ⟨a, b, h.reader, h.writer, h.writer'⟩
  rcases hr : (TlsItem.read (α := EcdheServerKeyExchange)).run data with ⟨r, rest⟩
  cases r with
  | ok ps =>
    have e1 : (Tr.lift ((TlsItem.read (α := EcdheServerKeyExchange)).run data).1).res = .ok ps := by rw [hr]; rfl
    rcases hq : NPoint256.fromUncompressedBytes .release ps.params.pub.items with (_ | q) | k | _ | _
    · rw [computeKeys_point _ _ _ _ _ hr, computeKeys_point _ _ _ _ _ hr, hq]
      unfold Ecdhe.computeKeysT
      rw [Husk.bind_trace_ok _ e1, Husk.bind_trace_ok _ e1, hq]
      exact ⟨rfl, rfl⟩
    · obtain ⟨x, -, x1⟩ := C55_first_below_p .release blocks block more hb hl hp
      obtain ⟨x', -, x1'⟩ := C55_first_below_p .release blocks' block' more' hb' hl' hp'
      obtain ⟨pms, y1, y2⟩ := Ecdhe.keysFrom_returns .release q x
      obtain ⟨pms', y1', y2'⟩ := Ecdhe.keysFrom_returns .release q x'
      rw [← hg] at x1
      rw [← hg'] at x1'
      have e := computeKeys_point .release data rest ps c.rng hr
      have e' := computeKeys_point .release data rest ps c'.rng hr
      simp only [hq] at e e'
      rw [St.bind_of_ok x1, St.lift_run, y1] at e
      rw [St.bind_of_ok x1', St.lift_run, y1'] at e'
      refine ⟨C88_compute_keys_partial data _ _ _ _ _ _ e e' ?_, ?_⟩
      · rw [hg, hg']
        simp only [List.length_append, fl hb, fl hb', hl, hl', hn]
        omega
      · rw [e, e']
        exact y2.trans y2'.symm
    all_goals
      rw [computeKeys_point _ _ _ _ _ hr, computeKeys_point _ _ _ _ _ hr, hq]
      unfold Ecdhe.computeKeysT
      rw [Husk.bind_trace_ok _ e1, Husk.bind_trace_ok _ e1, hq]
      first | exact ⟨rfl, rfl⟩ | exact ⟨rfl, trivial⟩
  | err k =>
    unfold Ecdhe.computeKeysT Ecdhe.computeKeys
    rw [hr]
    exact ⟨rfl, rfl⟩
  | panic =>
    unfold Ecdhe.computeKeysT Ecdhe.computeKeys
    rw [hr]
    exact ⟨rfl, trivial⟩
  | diverge =>
    unfold Ecdhe.computeKeysT Ecdhe.computeKeys
    rw [hr]
    exact ⟨rfl, trivial⟩

/-- A step with what is known of it. -/
theorem stepAt {P Q : σ → τ → Prop} {R : α → β → Prop} {S : γ → δ → Prop} {x : TSt σ α} {y : TSt τ β} {f : α → TSt σ γ} {g : β → TSt τ δ} {s : σ} {t : τ} (h : AlikeAt P R x y s t)
    (hq : ∀ s t, P s t → Q s t) (hf : ∀ u a b s' t', x.run s = (u, .ok a, s') → y.run t = (u, .ok b, t') → R a b → P s' t' → AlikeAt Q S (f a) (g b) s' t') : AlikeAt Q S (x >>= f) (y >>= g) s t := by
  obtain ⟨h1, h2, h3⟩ := h
  unfold AlikeAt
  rw [bind_run, bind_run]
  rcases hx : x.run s with ⟨u, r, s'⟩
  rcases hy : y.run t with ⟨u', r', t'⟩
  rw [hx, hy] at h1 h2 h3
  have h1 : u = u' := h1
  subst h1
  cases r <;> cases r' <;> first | exact absurd h2 id | skip
  · rename_i a b
    obtain ⟨g1, g2, g3⟩ := hf u a b s' t' hx hy h2 h3
    exact ⟨congrArg (u ++ ·) g1, g2, g3⟩
  · exact ⟨rfl, h2, hq _ _ h3⟩
  · exact ⟨rfl, trivial, hq _ _ h3⟩
  · exact ⟨rfl, trivial, hq _ _ h3⟩

/-- Two first flights that differ only in the client's key. -/
def SameFlight (f f' : ServerFlight) : Prop := f'.hello = f.hello ∧ f'.certs = f.certs ∧ f'.ske = f.ske ∧ f.preMasterSecret.length = f'.preMasterSecret.length

theorem Abreast.readFlight {w w' : TlsWriter} {block block' more more' : Bytes} {blocks blocks' : List Bytes} (hb : ∀ b ∈ blocks, b.length = 32 ∧ P256.p ≤ leNat b)
    (hb' : ∀ b ∈ blocks', b.length = 32 ∧ P256.p ≤ leNat b) (hn : blocks.length = blocks'.length) (hl : block.length = 32) (hl' : block'.length = 32) (hp : leNat block < P256.p)
    (hp' : leNat block' < P256.p) {c c' : TlsClient} (h : Abreast w w' c c') (hg : c.rng = ⟨blocks.flatten ++ block ++ more⟩) (hg' : c'.rng = ⟨blocks'.flatten ++ block' ++ more'⟩) :
    AlikeAt (Abreast w w') SameFlight (readFlightT .release) (readFlightT .release) c c' := by
  unfold readFlightT
  refine step (fun _ _ h => h.1) (Abreast.read _) ⟨h, hg, hg'⟩ fun hello hello' c c' e h => ?_
  subst e
  refine step (P := fun c c' => Abreast w w' c c' ∧ c.rng = _ ∧ c'.rng = _) (R := Eq) (fun _ _ h => h.1) (fun c c' h => ⟨rfl, ?_, h⟩) h fun _ _ c c' _ h => ?_
  · show SameOutcome Eq (checkServerHelloT hello).res (checkServerHelloT hello).res
    cases (checkServerHelloT hello).res <;> simp [SameOutcome]
  refine step (fun _ _ h => h.1) (Abreast.read _) h fun certs certs' c c' e h => ?_
  subst e
  refine step (fun _ _ h => h.1) (Abreast.read _) h fun ske ske' c c' e h => ?_
  subst e
  refine stepAt (Abreast.computeKeys hb hb' hn hl hl' hp hp' h.1 h.2.1 h.2.2) (fun _ _ h => h) fun _ k k' c c' _ _ e h => ?_
  exact step (fun _ _ h => h) (Abreast.read' _) h fun _ _ c c' _ h => ⟨rfl, ⟨rfl, rfl, rfl, e⟩, h⟩

end TlsClient

end Husk
