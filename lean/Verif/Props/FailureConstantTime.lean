import Verif.Proofs.TraceFailNew
/-! # C114: what a handshake that fails shows through timing and caches

`newWholeT` is `TlsClient::new` with the observations of `Verif/Base/Trace` and the calls on the transport, including the alert that a failure makes it send. Two calls are compared that
read the same bytes and differ in the random bytes, and so in the private key, the premaster secret and everything derived from it. (Handshakes that succeed are C112.) -/

namespace Husk

open TSt Spec TlsReader TlsClient

/-- No protected record has been accepted: the client has no key for reading, or has not accepted a record since it got one. -/
def Unopened (c : TlsClient) : Prop := c.reader.decryptor = none ∨ c.reader.readCount = 0

namespace TlsClient

/-- A call that did not fail, or failed after a protected record had been accepted. -/
def LeftOut (o : Res Unit × TlsClient) : Prop := (∀ e, o.1 ≠ .err e) ∨ ¬Unopened o.2

/-- A call that did not fail, or failed when the client had a key for reading. -/
def Keyless (o : Res Unit × TlsClient) : Prop := (∀ e, o.1 ≠ .err e) ∨ o.2.reader.decryptor ≠ none

/-- Two calls show the same, or one of them is not considered. -/
def Ended (L L' : Res Unit × TlsClient → Prop) (x y : TSt TlsClient Unit) (c c' : TlsClient) : Prop :=
  L (x.run c).2 ∨ L' (y.run c').2 ∨ AlikeAt LikeWriters (fun _ _ => True) x y c c'

theorem Ended.bind {L L' : Res Unit × TlsClient → Prop} {P : TlsClient → TlsClient → Prop} {R : α → β → Prop} {x : TSt TlsClient α} {y : TSt TlsClient β} {f : α → TSt TlsClient Unit} {g : β → TSt TlsClient Unit} {c c' : TlsClient}
    (h : AlikeAt P R x y c c') (hq : ∀ d d', P d d' → LikeWriters d d')
    (hf : ∀ u a b d d', x.run c = (u, .ok a, d) → y.run c' = (u, .ok b, d') → R a b → P d d' → Ended L L' (f a) (g b) d d') : Ended L L' (x >>= f) (y >>= g) c c' := by
  obtain ⟨h1, h2, h3⟩ := h
  unfold Ended AlikeAt
  rw [bind_run _ _ c, bind_run _ _ c']
  rcases hx : x.run c with ⟨u, r, d⟩
  rcases hy : y.run c' with ⟨u', r', d'⟩
  rw [hx, hy] at h1 h2 h3
  have h1 : u = u' := h1
  subst h1
  cases r <;> cases r' <;> first | exact absurd h2 id | skip
  · rename_i a b
    rcases hf u a b d d' hx hy h2 h3 with g | g | ⟨g1, g2, g3⟩
    · exact .inl g
    · exact .inr (.inl g)
    · exact .inr (.inr ⟨congrArg (u ++ ·) g1, g2, g3⟩)
  · exact .inr (.inr ⟨rfl, h2, hq _ _ h3⟩)
  · exact .inr (.inr ⟨rfl, trivial, hq _ _ h3⟩)
  · exact .inr (.inr ⟨rfl, trivial, hq _ _ h3⟩)

theorem sendTlsAlertT_reader {m : Mode} (key : Option Bytes) (k : TlsErrorKind) (c : TlsClient) : ((sendTlsAlertT m key k).run c).2.2.reader = c.reader := by
  by_cases hk : k = .IoFailure
  · subst hk; rfl
  · rw [sendTlsAlertT_run key hk]
    rcases hx : (onWriterT (TlsWriter.writeAlertT m key (Alert.fromTlsErr k))).run c with ⟨u, r, d⟩
    have e : d.reader = c.reader := by
      have : ((onWriterT (TlsWriter.writeAlertT m key (Alert.fromTlsErr k))).run c).2.2.reader = c.reader := rfl
      rw [hx] at this
      exact this
    cases r <;> exact e

theorem Past.opened {k : Bytes} {c : TlsClient} (h : Past k c.reader) : ¬Unopened c := by
  rintro (e | e)
  · have := h.key
    unfold TlsReader.HasKey at this
    rw [e] at this
    cases this
  · have := h.pos
    rw [e] at this
    exact absurd this (by decide)

/-- The last part of a handshake that is not considered. -/
theorem leftOut_last {m : Mode} {key : Option Bytes} {x : TSt TlsReader Unit} {y : TSt TlsClient Unit} {c : TlsClient} (e : y.run c = (onReaderT x).run c)
    {U : TlsReader → Prop} (h : (∀ e, (x.run c.reader).2.1 ≠ .err e) ∨ U (x.run c.reader).2.2) : (∀ e, ((orAlertT m key y >>= fun _ => see (.branch true)).run c).2.1 ≠ .err e) ∨
      U ((orAlertT m key y >>= fun _ => see (.branch true)).run c).2.2.reader := by
  rw [bind_run _ _ c]
  have e2 : (onReaderT x).run c = ((x.run c.reader).1, (x.run c.reader).2.1, { c with reader := (x.run c.reader).2.2 }) := rfl
  rcases hx : x.run c.reader with ⟨u, r, s⟩
  rw [hx] at h e2
  rw [e2] at e
  cases r with
  | ok a => rw [orAlertT_ok e]; exact .inl fun _ h => nomatch h
  | panic => unfold orAlertT; dsimp only; rw [e]; exact .inl fun _ h => nomatch h
  | diverge => unfold orAlertT; dsimp only; rw [e]; exact .inl fun _ h => nomatch h
  | err q =>
    rcases h with h | h
    · exact absurd rfl (h q)
    · rw [orAlertT_err e, bind_run]
      have hr := sendTlsAlertT_reader (m := m) key q { c with reader := s }
      rcases hs : (sendTlsAlertT m key q).run { c with reader := s } with ⟨v, a, d⟩
      rw [hs] at hr
      have hp : U d.reader := by rw [show d.reader = s from hr]; exact h
      cases a <;> exact .inr hp

/-- The last part of two handshakes. -/
theorem last_like {c c' : TlsClient} {L L' : Res Unit × TlsClient → Prop} {U U' : Res Unit × TlsReader → Prop} {x x' : TSt TlsReader Unit} {y y' : TSt TlsClient Unit} {ck ck' : Bytes}
    (F : U (x.run c.reader).2 ∨ U' (x'.run c'.reader).2 ∨ ((x.run c.reader).1 = (x'.run c'.reader).1 ∧ SameOutcome (fun _ _ => True) (x.run c.reader).2.1 (x'.run c'.reader).2.1))
    (hU : U (x.run c.reader).2 → L ((orAlertT .release (some ck) y >>= fun _ => see (.branch true)).run c).2)
    (hU' : U' (x'.run c'.reader).2 → L' ((orAlertT .release (some ck') y' >>= fun _ => see (.branch true)).run c').2)
    (e : y.run c = (onReaderT x).run c) (e' : y'.run c' = (onReaderT x').run c') (hw : TlsWriter.Twin .release ck ck' c.writer c'.writer) :
    Ended L L' (orAlertT .release (some ck) y >>= fun _ => see (.branch true)) (orAlertT .release (some ck') y' >>= fun _ => see (.branch true)) c c' := by
  rcases F with F | F | ⟨F1, F2⟩
  · exact .inl (hU F)
  · exact .inr (.inl (hU' F))
  · have A : AlikeAt (fun d d' => TlsWriter.Twin .release ck ck' d.writer d'.writer) (fun _ _ => True) y y' c c' := by
      unfold AlikeAt
      rw [e, e']
      exact ⟨F1, F2, hw⟩
    have B := orAlertT_like (m := .release) (key := some ck) (key' := some ck') A (fun _ _ h => h.writer) fun k d d' _ _ h _ => by
      obtain ⟨b1, b2, b3⟩ := TlsWriter.writeAlertT_alike (Alert.fromTlsErr k) d.writer d'.writer h
      exact ⟨b1, b2, b3.writer⟩
    exact Ended.bind B (fun _ _ h => h) fun _ _ _ d d' _ _ _ h => .inr (.inr ⟨rfl, trivial, h⟩)

/-- The last parts of two handshakes, with a way to say which are considered. -/
structure Considered (L L' : Res Unit × TlsClient → Prop) (U U' : Res Unit × TlsReader → Prop) : Prop where
  first : ∀ {x : TSt TlsReader Unit} {y : TSt TlsClient Unit} {c : TlsClient} {key : Bytes}, y.run c = (onReaderT x).run c → U (x.run c.reader).2 → L ((orAlertT .release (some key) y >>= fun _ => see (.branch true)).run c).2
  second : ∀ {x : TSt TlsReader Unit} {y : TSt TlsClient Unit} {c : TlsClient} {key : Bytes}, y.run c = (onReaderT x).run c → U' (x.run c.reader).2 → L' ((orAlertT .release (some key) y >>= fun _ => see (.branch true)).run c).2
  finish : ∀ {cr cr' pub pub' : Bytes} {f f' : ServerFlight}, cr.length = 32 → cr'.length = 32 → FlightFit f pub → FlightFit f' pub' → (serverMessages f).length = (serverMessages f').length →
    ∀ {s s' : TlsReader}, Beside s s' → s.iv = some (f.keys cr).serverIv → s'.iv = some (f'.keys cr').serverIv → s.reader.bytes < 2 ^ 64 → ∀ {x y : TSt TlsReader Unit},
    x = finishT .release (f.master cr) (f.keys cr).serverKey (f.messages cr pub) (.finished ⟨f.clientVerify cr pub⟩) →
    y = finishT .release (f'.master cr') (f'.keys cr').serverKey (f'.messages cr' pub') (.finished ⟨f'.clientVerify cr' pub'⟩) →
    U (x.run s).2 ∨ U' (y.run s').2 ∨ ((x.run s).1 = (y.run s').1 ∧ SameOutcome (fun _ _ => True) (x.run s).2.1 (y.run s').2.1)

theorem Beside.ivs {s : TlsReader} (h : s.decryptor = none) (iv iv' : Option Bytes) : Beside { s with iv := iv } { s with iv := iv' } := ⟨h, rfl⟩

theorem whole_like {L L' : Res Unit × TlsClient → Prop} {U U' : Res Unit × TlsReader → Prop} (hL : Considered L L' U U') {rd : Reader} {wr wr' : Writer} {rng rng' : Rng} (hb : rd.bytes < 2 ^ 64) (hw : Writer.Twin wr wr') (hd : SameDraws rng rng') :
    L (newWholeT .release rd wr rng).2 ∨ L' (newWholeT .release rd wr' rng').2 ∨
      ((newWholeT .release rd wr rng).1 = (newWholeT .release rd wr' rng').1 ∧ SameOutcome (fun _ _ => True) (newWholeT .release rd wr rng).2.1 (newWholeT .release rd wr' rng').2.1 ∧
        LikeWriters (newWholeT .release rd wr rng).2.2 (newWholeT .release rd wr' rng').2.2) := by
  obtain ⟨cr, cr', block, block', more, more', blocks, blocks', hg, hg', hl, hl', hB, hB', hn, l, l', hp, hp'⟩ := hd
  obtain ⟨H1, H2⟩ := hello_like (m := .release) (rd := rd) hg hg' hl hl' hw
  refine Ended.bind H1 (fun _ _ h => h) fun u a b c1 c1' q q' _ _ => ?_
  obtain ⟨rfl, rfl, hw1, hn1, e1, e1'⟩ := H2 u a b c1 c1' (orAlertT_value q) (orAlertT_value q')
  have hA : Abreast c1.writer c1'.writer c1 c1' := ⟨(congrArg TlsClient.reader e1).trans (congrArg TlsClient.reader e1').symm, rfl, rfl⟩
  have hr1 : c1.reader = TlsReader.new rd := congrArg TlsClient.reader e1
  have F := Abreast.readFlight hB hB' hn l l' hp hp' hA (congrArg TlsClient.rng e1) (congrArg TlsClient.rng e1')
  have G := orAlertT_like (m := .release) (key := none) (key' := none) F (fun d d' h => by unfold LikeWriters; rw [h.writer, h.writer']; exact hw1.writer) fun k d d' _ _ h _ => by
    obtain ⟨b1, b2, b3⟩ := TlsWriter.writeAlertT_clear (m := .release) (Alert.fromTlsErr k) d.writer d'.writer (by rw [h.writer, h.writer']; exact hw1)
    exact ⟨b1, b2, b3.writer⟩
  refine Ended.bind G (fun _ _ h => h) fun u f f' c2 c2' q q' hff _ => ?_
  have q := orAlertT_value q
  have q' := orAlertT_value q'
  obtain ⟨-, -, F3⟩ := F
  rw [q, q'] at F3
  have F3 : Abreast c1.writer c1'.writer c2 c2' := F3
  have back : ∀ {c d : TlsClient} {u : List Obs} {f : ServerFlight}, c.reader = TlsReader.new rd → (readFlightT .release).run c = (u, .ok f, d) → ∃ pub, FlightFit f pub ∧ d.reader.decryptor = none ∧
      d.reader.iv = none ∧ d.reader.reader.bytes ≤ rd.bytes := by
    intro c d u f hc h
    have h2 := (readFlightT_agrees (m := .release) c (by show c.reader.decryptor = none; rw [hc]; rfl)).1
    rw [h] at h2
    obtain ⟨s1, s2, s3, s4, g, hR, rfl⟩ := readFlight_inv h2.symm
    obtain ⟨X, Y, hfit, -⟩ := hR.fit
    obtain ⟨b1, b2⟩ := hR.same
    rw [hc] at b1 b2
    have r1 := readMessage_bytes hR.hello
    have r2 := readMessage_bytes hR.certs
    have r3 := readMessage_bytes hR.ske
    have r4 := readMessage_bytes hR.done
    rw [hc] at r1
    exact ⟨_, hfit, b1, b2, Nat.le_trans r4 (Nat.le_trans r3 (Nat.le_trans r2 r1))⟩
  obtain ⟨pub, hf, d2, i2, n2⟩ := back hr1 q
  obtain ⟨pub', hf', d2', i2', n2'⟩ := back (hA.reader.symm.trans hr1) q'
  have hm : (serverMessages f).length = (serverMessages f').length := by
    unfold serverMessages
    rw [hff.1, hff.2.1, hff.2.2.1]
  have hw2 : TlsWriter.ClearTwin c2.writer c2'.writer := by rw [F3.writer, F3.writer']; exact hw1
  have hc2 : c2.writer.writeCount = 1 := by rw [F3.writer]; exact hn1
  have S := second_flight_alike .release hl hl' hf hf' hff.2.2.2 hm ⟨hw2, i2, i2'⟩
  have three : ∀ {cr pub : Bytes} {f : ServerFlight} {c : TlsClient}, cr.length = 32 → FlightFit f pub → c.writer.encryptor = none → c.writer.iv = none → c.reader.iv = none → c.writer.writeCount = 1 →
      ∀ u r d, (sendFinishedT .release cr (helloMessage cr) f).run c = (u, r, d) → (∃ w', r = .ok (f.master cr, (f.keys cr).serverKey, f.messages cr pub, .finished ⟨f.clientVerify cr pub⟩) ∧
        d = { c with writer := w', reader := { c.reader with iv := some (f.keys cr).serverIv } } ∧ w'.encryptor = some (.chacha .release (f.keys cr).clientKey) ∧
        w'.iv = some (f.keys cr).clientIv ∧ w'.writeCount = 1) ∨ r = .err .IoFailure := by
    intro cr pub f c hl hf h1 h2 h3 h4 u r d h
    have e := (C105_same_result .release hl hf h1 h2 h3 [] [] (helloMessage cr) ⟨[]⟩).1
    rw [h] at e
    rcases sendFinished_cases .release cr f pub hl hf c h1 h2 h3 (by rw [h4]; decide) with ⟨w', k1, -, k2, k3, k4, -⟩ | ⟨c', n, k1, -⟩
    · rw [k1] at e
      cases e
      exact .inl ⟨w', rfl, rfl, k2, k3, k4⟩
    · rw [k1] at e
      cases e
      exact .inr rfl
  have T := three hl hf hw2.key hw2.iv i2 hc2
  have T' := three hl' hf' hw2.key' hw2.iv' i2' (hw2.count.symm.trans hc2)
  have S2 := orAlertT_like (m := .release) (key := none) (key' := none) S (fun d d' h => h) fun k d d' h _ _ hk => by
    rcases hr : (sendFinishedT .release cr (helloMessage cr) f).run c2 with ⟨u, r, e⟩
    rw [hr] at h
    cases h
    rcases T _ _ _ hr with ⟨w', t1, -⟩ | t1
    · cases t1
    · cases t1; exact absurd rfl hk
  dsimp only
  refine Ended.bind S2 (fun _ _ h => h) fun u sent sent' c3 c3' q q' _ hw3 => ?_
  rcases T _ _ _ (orAlertT_value q) with ⟨w', t1, rfl, t2, t3, t4⟩ | t1
  rotate_left
  · cases t1
  rcases T' _ _ _ (orAlertT_value q') with ⟨w2', t1', rfl, t2', t3', t4'⟩ | t1'
  rotate_left
  · cases t1'
  cases t1
  cases t1'
  dsimp only
  rw [clientKeyOf_eq hl hf, clientKeyOf_eq hl' hf']
  obtain ⟨k1, k2, k3, k4⟩ := hf.keys_length hl
  obtain ⟨k1', k2', k3', k4'⟩ := hf'.keys_length hl'
  have hbe : Beside { c2.reader with iv := some (f.keys cr).serverIv } { c2'.reader with iv := some (f'.keys cr').serverIv } := by
    rw [← F3.reader]
    exact Beside.ivs d2 _ _
  have fin := hL.finish hl hl' hf hf' hm hbe rfl rfl (Nat.lt_of_le_of_lt n2 hb) rfl rfl
  refine last_like fin (hL.first (readFinishedT_eq _ _ _ _ _ _)) (hL.second (readFinishedT_eq _ _ _ _ _ _)) (readFinishedT_eq _ _ _ _ _ _) (readFinishedT_eq _ _ _ _ _ _) ⟨t2, t2', ?_, ?_, ⟨_, _, t3, t3', ?_, ?_⟩, t4.trans t4'.symm, hw3⟩
  all_goals assumption

/-- Handshakes that fail before a protected record has been accepted. -/
theorem considered_unopened : Considered LeftOut LeftOut (fun o => ∃ k, Left k o) (fun o => ∃ k, Left k o) := by
  have one : ∀ {x : TSt TlsReader Unit} {y : TSt TlsClient Unit} {c : TlsClient} {key : Bytes}, y.run c = (onReaderT x).run c → (∃ k, Left k (x.run c.reader).2) →
      LeftOut ((orAlertT .release (some key) y >>= fun _ => see (.branch true)).run c).2 := by
    intro x y c key e ⟨k, h⟩
    rcases leftOut_last (m := .release) (key := some key) (U := Past k) e h with h | h
    · exact .inl h
    · exact .inr (Past.opened h)
  refine ⟨one, one, ?_⟩
  intro cr cr' pub pub' f f' hc hc' hf hf' hm s s' h hi hi' hb x y hx hy
  rcases finish_alike hc hc' hf hf' hm h hi hi' hb hx hy with g | g | g
  · exact .inl ⟨_, g⟩
  · exact .inr (.inl ⟨_, g⟩)
  · exact .inr (.inr g)

/-- Handshakes the first of which fails before it has a key for reading. -/
theorem considered_clear : Considered Keyless (fun _ => False) (fun o => (∀ e, o.1 ≠ .err e) ∨ o.2.decryptor ≠ none) (fun _ => False) := by
  refine ⟨fun e h => leftOut_last (U := fun s => s.decryptor ≠ none) e h, fun _ h => h, ?_⟩
  intro cr cr' pub pub' f f' hc hc' hf hf' hm s s' h hi hi' hb x y hx hy
  subst hx hy
  unfold finishT
  obtain ⟨g1, g2, g3⟩ := Beside.readChange (m := .release) s s' h
  rw [bind_run _ _ s, bind_run _ _ s']
  rcases e1 : (readChangeCipherSpecT .release none).run s with ⟨u, r, s1⟩
  rcases e2 : (readChangeCipherSpecT .release none).run s' with ⟨u', r', s1'⟩
  rw [e1, e2] at g1 g2 g3
  have g1 : u = u' := g1
  subst g1
  cases r <;> cases r' <;> first | exact absurd g2 id | skip
  rotate_left
  · exact Or.inr (Or.inr ⟨rfl, g2⟩)
  · exact Or.inl (Or.inl (by simp))
  · exact Or.inl (Or.inl (by simp))
  left
  right
  have d1 : s1.decryptor = none := g3.1
  have q1 : (setDecryptor (.chacha .release (f.keys cr).serverKey)).run s1 = (.ok (), { s1 with decryptor := some (.chacha .release (f.keys cr).serverKey), readCount := 0 }) := by
    unfold setDecryptor; simp only [d1]
  dsimp only
  rw [bind_of_ok (t := []) (a := ()) (s' := { s1 with decryptor := some (.chacha .release (f.keys cr).serverKey), readCount := 0 }) (by rw [← q1]; rfl)]
  obtain ⟨f1, f2⟩ := finishedT_agrees (m := .release) (key := some (f.keys cr).serverKey) { s1 with decryptor := some (.chacha .release (f.keys cr).serverKey), readCount := 0 } rfl
  rw [← f1] at f2
  rw [bind_run]
  rcases hx : (expectT .release (some (f.keys cr).serverKey) pickFinished).run { s1 with decryptor := some (.chacha .release (f.keys cr).serverKey), readCount := 0 } with ⟨v, r, s2⟩
  rw [hx] at f2
  have f2 : s2.decryptor = some (.chacha .release (f.keys cr).serverKey) := f2
  have f3 : s2.decryptor ≠ none := by rw [f2]; exact fun h => nomatch h
  cases r <;> exact f3

end TlsClient

/-- The call with observations is `TlsClient::new`. -/
theorem C114_same_result (m : Mode) (rd : Reader) (wr : Writer) (rng : Rng) : (newWholeT m rd wr rng).2 = TlsClient.new m rd wr rng := newWholeT_follows m rd wr rng

/-- C114: two calls of `TlsClient::new` on the same incoming bytes that both fail before a protected record has been accepted: they fail with the same error, they show the same, and they write the same number of bytes. -/
theorem C114_failed {rd : Reader} {wr wr' : Writer} {rng rng' : Rng} {c c' : TlsClient} {k k' : TlsErrorKind} (hb : rd.bytes < 2 ^ 64) (hw : Writer.Twin wr wr') (hd : SameDraws rng rng')
    (h : TlsClient.new .release rd wr rng = (.err k, c)) (h' : TlsClient.new .release rd wr' rng' = (.err k', c')) (hu : Unopened c) (hu' : Unopened c') :
    k = k' ∧ (newWholeT .release rd wr rng).1 = (newWholeT .release rd wr' rng').1 ∧ Writer.Twin c.writer.writer c'.writer.writer := by
  rw [← C114_same_result] at h h'
  rcases TlsClient.whole_like considered_unopened hb hw hd with g | g | ⟨g1, g2, g3⟩
  · rw [h] at g
    exact (g.elim (fun g => g k rfl) fun g => g hu).elim
  · rw [h'] at g
    exact (g.elim (fun g => g k' rfl) fun g => g hu').elim
  · rw [h, h'] at g2 g3
    exact ⟨g2, g1, g3⟩

/-- C114, before the keys are in use: if one call fails before it has a key for reading, every other call on the same incoming bytes fails too, with the same error, and shows the same. -/
theorem C114_in_clear {rd : Reader} {wr wr' : Writer} {rng rng' : Rng} {c : TlsClient} {k : TlsErrorKind} (hb : rd.bytes < 2 ^ 64) (hw : Writer.Twin wr wr') (hd : SameDraws rng rng')
    (h : TlsClient.new .release rd wr rng = (.err k, c)) (hu : c.reader.decryptor = none) :
    ∃ c', TlsClient.new .release rd wr' rng' = (.err k, c') ∧ (newWholeT .release rd wr rng).1 = (newWholeT .release rd wr' rng').1 ∧ Writer.Twin c.writer.writer c'.writer.writer := by
  rw [← C114_same_result] at h ⊢
  rcases TlsClient.whole_like considered_clear hb hw hd with g | g | ⟨g1, g2, g3⟩
  · rw [h] at g
    exact (g.elim (fun g => g k rfl) fun g => g hu).elim
  · exact g.elim
  · rw [h] at g2 g3
    rcases hx : (newWholeT .release rd wr' rng').2 with ⟨r, c'⟩
    rw [hx] at g2 g3
    cases r <;> first | exact absurd g2 id | skip
    have g2 : k = _ := g2
    subst g2
    exact ⟨c', rfl, g1, g3⟩

/-- The hypotheses of C114 are met by two clients with different random bytes when the server begins with ServerHelloDone: both send the alert unexpected_message in clear. -/
example : ∃ (rd : Reader) (rng rng' : Rng) (c c' : TlsClient), rng ≠ rng' ∧ rd.bytes < 2 ^ 64 ∧ SameDraws rng rng' ∧ TlsClient.new .release rd {} rng = (.err .UnexpectedMessage, c) ∧
    TlsClient.new .release rd {} rng' = (.err .UnexpectedMessage, c') ∧ Unopened c ∧ Unopened c' ∧ c.writer.writer.wire.drop (c.writer.writer.wire.length - 7) = [21, 3, 3, 0, 2, 2, 10] ∧
    c.writer.writer.wire ≠ c'.writer.writer.wire := by
  refine ⟨⟨[.data [22, 3, 3, 0, 4, 14, 0, 0, 0]]⟩, ⟨List.replicate 64 1⟩, ⟨List.replicate 64 2⟩, _, _, by decide, by decide, ?_, rfl, rfl, .inl rfl, .inl rfl, by rfl, by decide⟩
  exact ⟨List.replicate 32 1, List.replicate 32 2, List.replicate 32 1, List.replicate 32 2, [], [], [], [], by decide, by decide, by decide, by decide, by simp, by simp, rfl, by decide, by decide,
    by decide, by decide⟩

end Husk
