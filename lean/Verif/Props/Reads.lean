import Verif.Props.Outcome
import Verif.Props.ClientIo
/-! C108: what `read` calls return, as a relation on what the peer sends that has exactly one value. -/

namespace Husk

open Item Spec TlsReader TlsClient

/-! ### Specification -/

/-- How the data comes to a stop. -/
inductive Halt
  | failed (k : TlsErrorKind)
  | crash

/-- A message that is not application data, nor says that the connection is closed. -/
def NotData : Message → Prop
  | .ApplicationDataMessage _ => False
  | .AlertMessage a => a.description ≠ .close_notify
  | _ => True

/-- The data that arrives on `s`, what stops it, and what is left after an error. -/
inductive Arrives : TlsReader → Bytes → Halt → TlsReader → Prop
  | data {s s1 s' : TlsReader} {d ds : Bytes} {e : Halt} : Comes s (.ok (.ApplicationDataMessage d)) s1 → Arrives s1 ds e s' → Arrives s (d ++ ds) e s'
  | close {s s1 s' : TlsReader} {level : AlertLevel} {ds : Bytes} {e : Halt} : Comes s (.ok (.AlertMessage ⟨level, .close_notify⟩)) s1 → Arrives s1 ds e s' → Arrives s ds e s'
  | failed {s s' : TlsReader} {k : TlsErrorKind} : Comes s (.err k) s' → Arrives s [] (.failed k) s'
  | other {s s1 s' : TlsReader} {msg : Message} : Comes s (.ok msg) s1 → NotData msg → Arrives s [] .crash s'
  | overlong {s s1 s' : TlsReader} : Comes s .panic s1 → Arrives s [] .crash s'

/-- What `read` calls with buffers of lengths `lens` return when `data` is there, then `e` stops it, and `s` is left. A call that asks for more than is there and is stopped by an
error returns what is there; the next call goes on with what is left. -/
inductive HandsOut : Bytes → Halt → TlsReader → List Nat → List (Res Bytes) → Prop
  | nil {data : Bytes} {e : Halt} {s : TlsReader} : HandsOut data e s [] []
  | full {data : Bytes} {e : Halt} {s : TlsReader} {len : Nat} {lens : List Nat} {rs : List (Res Bytes)} : len ≤ data.length → HandsOut (data.drop len) e s lens rs →
      HandsOut data e s (len :: lens) (.ok (data.take len) :: rs)
  | short {data data' : Bytes} {k : TlsErrorKind} {e' : Halt} {s s' : TlsReader} {len : Nat} {lens : List Nat} {rs : List (Res Bytes)} : data.length < len →
      Arrives s data' e' s' → HandsOut data' e' s' lens rs → HandsOut data (.failed k) s (len :: lens) (.ok data :: rs)
  | crash {data : Bytes} {s : TlsReader} {len : Nat} {lens : List Nat} : data.length < len → HandsOut data .crash s (len :: lens) [.panic]

/-! ### Proof: what arrives -/

/-- Records are decrypted. -/
def HasDecryptor (s : TlsReader) : Prop := ∃ m key, s.decryptor = some (.chacha m key) ∧ key.length = 32

theorem HasDecryptor.sound {s : TlsReader} (h : HasDecryptor s) : SoundKeys s := Or.inr h
theorem HasDecryptor.isSome {s : TlsReader} (h : HasDecryptor s) : s.decryptor.isSome := by obtain ⟨m, key, h, -⟩ := h; rw [h]; rfl
theorem HasDecryptor.of_eq {s t : TlsReader} (h : HasDecryptor s) (e : t.decryptor = s.decryptor) : HasDecryptor t := by unfold HasDecryptor; rw [e]; exact h

theorem countBytes_stops {stream l : List Sym} {p : Bytes} (h : StopsAfter stream p l) : countBytes l ≤ countBytes stream := by
  rcases h with ⟨rfl, rfl⟩ | rfl
  · simp [countBytes]
  · rw [countBytes_append]
    simp [countBytes]

theorem badRecord_left {s : TlsReader} {k : TlsErrorKind} {l : List Sym} (h : BadRecord s k l) : countBytes l ≤ countBytes s.reader.stream := by
  cases h with
  | stops p _ _ hs => exact countBytes_stops hs
  | type n _ _ hs => rw [hs, countBytes_append]; omega
  | announced _ _ _ _ _ _ _ _ hs => rw [hs, countBytes_append]; omega
  | refused _ _ _ _ _ _ _ hs => rw [hs, countBytes_append]; omega

/-- After an error. -/
theorem Comes.after {s s' : TlsReader} {x : Res Message} (h : Comes s x s') {k : TlsErrorKind} (hx : x = .err k) (hr : Room s) : Room s' ∧ s'.decryptor = s.decryptor := by
  induction h with
  | whole => cases hx
  | bad _ _ _ hs => exact ⟨Room.same (Same.symm hs) hr, hs.2.1⟩
  | more _ ht _ _ _ _ ih =>
    obtain ⟨a, b⟩ := ih hx (Took.room ht 1 hr)
    exact ⟨a, b.trans (Took.decryptor ht)⟩
  | message => cases hx
  | noMessage _ ht _ _ => exact ⟨Took.room ht 1 hr, Took.decryptor ht⟩
  | noRecord _ hb hl =>
    obtain ⟨a1, a2, a3, -⟩ := hl
    have := badRecord_left hb
    refine ⟨?_, a2⟩
    unfold Room at *
    rw [a1, a3]
    omega
  | overlong => cases hx

theorem Comes.not_diverge {s s' : TlsReader} {x : Res Message} (h : Comes s x s') : x ≠ .diverge := by
  induction h with
  | more _ _ _ _ _ _ ih => exact ih
  | _ => simp

theorem Arrives.after {s s' : TlsReader} {data : Bytes} {e : Halt} (h : Arrives s data e s') (hr : Room s) (hd : HasDecryptor s) {k : TlsErrorKind} (he : e = .failed k) :
    Room s' ∧ HasDecryptor s' := by
  induction h with
  | data hc _ ih => obtain ⟨a, b, -⟩ := hc.kept hr; exact ih a (hd.of_eq b) he
  | close hc _ ih => obtain ⟨a, b, -⟩ := hc.kept hr; exact ih a (hd.of_eq b) he
  | failed hc => obtain ⟨a, b⟩ := hc.after rfl hr; exact ⟨a, hd.of_eq b⟩
  | other => cases he
  | overlong => cases he

/-- What `read_application_data` does. -/
theorem Comes.applicationData (m : Mode) {s s1 t : TlsReader} {x : Res Message} (h : Comes s x s1) (hr : Room s) (hd : HasDecryptor s) (ht : Same t s) :
    ∃ t1, (readApplicationData m).run t = (x >>= Husk.TlsReader.applicationData, t1) ∧ (x.Returns → Same t1 s1) := by
  obtain ⟨t1, h1, h2⟩ := h.runs m hr ht
  exact ⟨t1, readApplicationData_message (by rw [ht.2.1]; exact hd.isSome) h1, h2⟩

theorem arrives_total (s : TlsReader) (hr : Room s) (hd : HasDecryptor s) : ∃ data e s', Arrives s data e s' := by
  generalize hn : countBytes s.reader.stream = n
  induction n using Nat.strong_induction_on generalizing s with
  | _ n ih =>
  have hc := comes_total .release s hd.sound hr
  generalize hx : ((readMessage .release).run s).1 = x at hc
  generalize ((readMessage .release).run s).2 = s1 at hc
  have more : ∀ msg d, x = .ok msg → Husk.TlsReader.applicationData msg = .ok d → ∃ data e s', Arrives s1 data e s' := by
    rintro msg d rfl hm
    obtain ⟨a, b, -⟩ := hc.kept hr
    obtain ⟨t1, g1, g2⟩ := hc.applicationData .release hr hd (Same.refl _)
    have := readApplicationData_consumes (g1.trans (by rw [Res.bind_ok, hm]))
    have g2 := g2 trivial
    exact ih (countBytes s1.reader.stream) (by rw [← g2.1]; omega) s1 a (hd.of_eq b) rfl
  cases x with
  | diverge => exact absurd rfl hc.not_diverge
  | err k => exact ⟨[], _, s1, .failed hc⟩
  | panic => exact ⟨[], _, s1, .overlong hc⟩
  | ok msg =>
    cases msg with
    | ApplicationDataMessage d => obtain ⟨ds, e, s', h⟩ := more _ d rfl rfl; exact ⟨_, e, s', .data hc h⟩
    | HandshakeMessage h => exact ⟨[], _, s1, .other hc trivial⟩
    | ChangeCipherSpecMessage => exact ⟨[], _, s1, .other hc trivial⟩
    | AlertMessage a =>
      obtain ⟨level, desc⟩ := a
      by_cases hdesc : desc = .close_notify
      · subst hdesc
        obtain ⟨ds, e, s', h⟩ := more _ [] rfl (by simp [Husk.TlsReader.applicationData])
        exact ⟨_, e, s', .close hc h⟩
      · exact ⟨[], _, s1, .other hc hdesc⟩

theorem Comes.unique {s t a b : TlsReader} {x y : Res Message} (hx : Comes s x a) (hy : Comes t y b) (hs : Same s t) (hr : Room s) : x = y ∧ (x.Returns → Same a b) := by
  obtain ⟨u, g1, g2⟩ := hx.run .release hr
  obtain ⟨v, k1, k2⟩ := hy.runs .release (Room.same hs hr) hs
  rw [g1] at k1
  obtain ⟨rfl, rfl⟩ := Prod.mk.inj k1
  exact ⟨rfl, fun h => Same.trans (Same.symm (g2 h)) (k2 h)⟩

theorem Arrives.unique {s a : TlsReader} {d : Bytes} {e : Halt} (h : Arrives s d e a) : ∀ {t b : TlsReader} {d' : Bytes} {e' : Halt}, Arrives t d' e' b → Same s t → Room s →
    d = d' ∧ e = e' ∧ ((∃ k, e' = .failed k) → Same a b) := by
  induction h with
  | data hc _ ih =>
    intro t b d' e' h' hs hr
    cases h' with
    | data hc' h' =>
      obtain ⟨e1, e2⟩ := hc.unique hc' hs hr
      cases e1
      obtain ⟨rfl, g⟩ := ih h' (e2 trivial) (hc.kept hr).1
      exact ⟨rfl, g⟩
    | close hc' h' => cases (hc.unique hc' hs hr).1
    | failed hc' => cases (hc.unique hc' hs hr).1
    | other hc' hn => cases (hc.unique hc' hs hr).1; exact hn.elim
    | overlong hc' => cases (hc.unique hc' hs hr).1
  | close hc _ ih =>
    intro t b d' e' h' hs hr
    cases h' with
    | data hc' h' => cases (hc.unique hc' hs hr).1
    | close hc' h' => exact ih h' ((hc.unique hc' hs hr).2 trivial) (hc.kept hr).1
    | failed hc' => cases (hc.unique hc' hs hr).1
    | other hc' hn => cases (hc.unique hc' hs hr).1; exact absurd rfl hn
    | overlong hc' => cases (hc.unique hc' hs hr).1
  | failed hc =>
    intro t b d' e' h' hs hr
    cases h' with
    | data hc' h' => cases (hc.unique hc' hs hr).1
    | close hc' h' => cases (hc.unique hc' hs hr).1
    | failed hc' =>
      obtain ⟨e1, e2⟩ := hc.unique hc' hs hr
      cases e1
      exact ⟨rfl, rfl, fun _ => e2 trivial⟩
    | other hc' hn => cases (hc.unique hc' hs hr).1
    | overlong hc' => cases (hc.unique hc' hs hr).1
  | other hc hn =>
    intro t b d' e' h' hs hr
    cases h' with
    | data hc' h' => cases (hc.unique hc' hs hr).1; exact hn.elim
    | close hc' h' => cases (hc.unique hc' hs hr).1; exact absurd rfl hn
    | failed hc' => cases (hc.unique hc' hs hr).1
    | other hc' hn => exact ⟨rfl, rfl, fun ⟨_, h⟩ => by cases h⟩
    | overlong hc' => cases (hc.unique hc' hs hr).1
  | overlong hc =>
    intro t b d' e' h' hs hr
    cases h' with
    | data hc' h' => cases (hc.unique hc' hs hr).1
    | close hc' h' => cases (hc.unique hc' hs hr).1
    | failed hc' => cases (hc.unique hc' hs hr).1
    | other hc' hn => cases (hc.unique hc' hs hr).1
    | overlong hc' => exact ⟨rfl, rfl, fun ⟨_, h⟩ => by cases h⟩

/-! ### Proof: one call -/

/-- `data` is there for the client (in its buffer, or to arrive), then `e`. -/
def There (c : TlsClient) (data : Bytes) (e : Halt) (s' : TlsReader) : Prop :=
  ∃ s ds, Same c.reader s ∧ Room s ∧ HasDecryptor s ∧ data = c.buf ++ ds ∧ Arrives s ds e s'

theorem refill_empty (m : Mode) {c : TlsClient} (hb : c.buf = []) {x : Res Bytes} {t : TlsReader} (h : (readApplicationData m).run c.reader = (x, t)) :
    (refill m).run c = match x with
      | .ok d => (.ok true, { c with reader := t, buf := d })
      | .err _ => (.ok false, { c with reader := t })
      | .panic => (.panic, { c with reader := t })
      | .diverge => (.diverge, { c with reader := t }) := by
  simp only [refill, hb, List.isEmpty_nil, if_true, onReader, St.zoom_run, h]
  cases x <;> simp

theorem readLoop_there (m : Mode) : ∀ (fuel rem : Nat) (acc : Bytes) (c : TlsClient) (data : Bytes) (e : Halt) (s' : TlsReader), countBytes c.reader.reader.stream + rem < fuel →
    There c data e s' →
    (rem ≤ data.length → ∃ c', (readLoop m fuel rem acc).run c = (.ok (acc ++ data.take rem), c') ∧ There c' (data.drop rem) e s') ∧
    (data.length < rem → (∀ k, e = .failed k → ∃ c', (readLoop m fuel rem acc).run c = (.ok (acc ++ data), c') ∧ c'.buf = [] ∧ Same c'.reader s') ∧
      (e = .crash → ((readLoop m fuel rem acc).run c).1 = .panic)) := by
  intro fuel
  induction fuel with
  | zero => intro rem acc c data e s' h; omega
  | succ fuel ih =>
    intro rem acc c data e s' hf hth
    by_cases h0 : rem = 0
    · subst h0
      refine ⟨fun _ => ⟨c, by rw [readLoop_zero]; simp [St.pure_run], by simpa using hth⟩, fun h => by omega⟩
    · rw [readLoop_succ _ _ _ _ h0]
      obtain ⟨s, ds, hs, hr, hd, rfl, ha⟩ := hth
      by_cases hb : c.buf = []
      · rw [hb]
        have next : ∀ (t s1 : TlsReader) (d ds' : Bytes), (readApplicationData m).run c.reader = (.ok d, t) → Same t s1 → Room s1 → HasDecryptor s1 → ds = d ++ ds' → Arrives s1 ds' e s' →
            There { c with reader := t, buf := d.drop (min rem d.length) } (ds.drop (min rem d.length)) e s' := by
          intro t s1 d ds' _ a b g hds hA
          exact ⟨s1, ds', a, b, g, by rw [hds, List.drop_append_of_le_length (by omega)], hA⟩
        have step : ∀ (t s1 : TlsReader) (d ds' : Bytes), (readApplicationData m).run c.reader = (.ok d, t) → Same t s1 → Room s1 → HasDecryptor s1 → ds = d ++ ds' → Arrives s1 ds' e s' →
            (rem ≤ ds.length → ∃ c', (readLoop m (fuel + 1) rem acc).run c = (.ok (acc ++ ds.take rem), c') ∧ There c' (ds.drop rem) e s') ∧
            (ds.length < rem → (∀ k, e = .failed k → ∃ c', (readLoop m (fuel + 1) rem acc).run c = (.ok (acc ++ ds), c') ∧ c'.buf = [] ∧ Same c'.reader s') ∧
              (e = .crash → ((readLoop m (fuel + 1) rem acc).run c).1 = .panic)) := by
          intro t s1 d ds' h1 a b g hds hA
          have hcons := readApplicationData_consumes h1
          have hT := next t s1 d ds' h1 a b g hds hA
          obtain ⟨i1, i2⟩ := ih (rem - min rem d.length) (acc ++ d.take (min rem d.length)) _ _ e s' (by simp only; omega) hT
          have htake : d.take (min rem d.length) = ds.take (min rem d.length) := by rw [hds, List.take_append_of_le_length (by omega)]
          have hlen : d.length ≤ ds.length := by rw [hds, List.length_append]; omega
          have hrun : (readLoop m (fuel + 1) rem acc).run c = (readLoop m fuel (rem - min rem d.length) (acc ++ d.take (min rem d.length))).run { c with reader := t, buf := d.drop (min rem d.length) } := by
            rw [readLoop_succ _ _ _ _ h0, refill_empty m hb h1]
          rw [hrun]
          refine ⟨fun hle => ?_, fun hlt => ⟨fun k hk => ?_, fun hk => ?_⟩⟩
          · obtain ⟨c', j1, j2⟩ := i1 (by rw [List.length_drop]; omega)
            refine ⟨c', ?_, ?_⟩
            · rw [j1, htake, List.append_assoc, ← List.take_add, show min rem d.length + (rem - min rem d.length) = rem by omega]
            · rw [List.drop_drop, show min rem d.length + (rem - min rem d.length) = rem by omega] at j2
              exact j2
          · obtain ⟨c', j1, j2⟩ := (i2 (by rw [List.length_drop]; omega)).1 k hk
            exact ⟨c', by rw [j1, htake, List.append_assoc, List.take_append_drop], j2⟩
          · exact (i2 (by rw [List.length_drop]; omega)).2 hk
        rw [← readLoop_succ _ _ _ _ h0, List.nil_append]
        cases ha with
        | @data _ s1 _ d ds' _ hc hA =>
          obtain ⟨t, g1, g2⟩ := hc.applicationData m hr hd hs
          obtain ⟨a, b, -⟩ := hc.kept hr
          exact step t s1 d ds' g1 (g2 trivial) a (hd.of_eq b) rfl hA
        | @close _ s1 _ level ds' _ hc hA =>
          obtain ⟨t, g1, g2⟩ := hc.applicationData m hr hd hs
          obtain ⟨a, b, -⟩ := hc.kept hr
          exact step t s1 [] ds (by rw [g1]; simp [Husk.TlsReader.applicationData]) (g2 trivial) a (hd.of_eq b) rfl hA
        | @failed _ _ k hc =>
          obtain ⟨t, g1, g2⟩ := hc.applicationData m hr hd hs
          rw [Res.bind_err] at g1
          refine ⟨fun h => absurd h (by simpa using h0), fun _ => ⟨fun k' _ => ⟨{ c with reader := t }, ?_, hb, g2 trivial⟩, fun h => by cases h⟩⟩
          rw [readLoop_succ _ _ _ _ h0, refill_empty m hb g1]
          simp
        | @other _ s1 _ msg hc hnd =>
          obtain ⟨t, g1, g2⟩ := hc.applicationData m hr hd hs
          have : Husk.TlsReader.applicationData msg = .panic := by
            cases msg with
            | ApplicationDataMessage d => exact hnd.elim
            | HandshakeMessage h => rfl
            | ChangeCipherSpecMessage => rfl
            | AlertMessage a => exact if_neg hnd
          rw [Res.bind_ok, this] at g1
          refine ⟨fun h => absurd h (by simpa using h0), fun _ => ⟨fun k' h => (by cases h), fun _ => ?_⟩⟩
          rw [readLoop_succ _ _ _ _ h0, refill_empty m hb g1]
        | @overlong _ s1 _ hc =>
          obtain ⟨t, g1, g2⟩ := hc.applicationData m hr hd hs
          refine ⟨fun h => absurd h (by simpa using h0), fun _ => ⟨fun k' h => (by cases h), fun _ => ?_⟩⟩
          rw [readLoop_succ _ _ _ _ h0, refill_empty m hb g1]
          rfl
      · have hrf : (refill m).run c = (.ok true, c) := by
          simp only [refill, List.isEmpty_iff, hb, if_false]
        rw [hrf]
        simp only
        have hpos : 1 ≤ c.buf.length := List.length_pos_iff.mpr hb
        have hT : There { c with buf := c.buf.drop (min rem c.buf.length) } ((c.buf ++ ds).drop (min rem c.buf.length)) e s' :=
          ⟨s, ds, hs, hr, hd, by rw [List.drop_append_of_le_length (by omega)], ha⟩
        obtain ⟨i1, i2⟩ := ih (rem - min rem c.buf.length) (acc ++ c.buf.take (min rem c.buf.length)) _ _ e s' (by simp only; omega) hT
        have htake : c.buf.take (min rem c.buf.length) = (c.buf ++ ds).take (min rem c.buf.length) := by rw [List.take_append_of_le_length (by omega)]
        have hlen : c.buf.length ≤ (c.buf ++ ds).length := by rw [List.length_append]; omega
        refine ⟨fun hle => ?_, fun hlt => ⟨fun k hk => ?_, fun hk => ?_⟩⟩
        · obtain ⟨c', j1, j2⟩ := i1 (by rw [List.length_drop]; omega)
          refine ⟨c', ?_, ?_⟩
          · rw [j1, htake, List.append_assoc, ← List.take_add, show min rem c.buf.length + (rem - min rem c.buf.length) = rem by omega]
          · rw [List.drop_drop, show min rem c.buf.length + (rem - min rem c.buf.length) = rem by omega] at j2
            exact j2
        · obtain ⟨c', j1, j2⟩ := (i2 (by rw [List.length_drop]; omega)).1 k hk
          exact ⟨c', by rw [j1, htake, List.append_assoc, List.take_append_drop], j2⟩
        · exact (i2 (by rw [List.length_drop]; omega)).2 hk

theorem read_there (m : Mode) (len : Nat) (c : TlsClient) (data : Bytes) (e : Halt) (s' : TlsReader) (h : There c data e s') :
    (len ≤ data.length → ∃ c', (TlsClient.read m len).run c = (.ok (data.take len), c') ∧ There c' (data.drop len) e s') ∧
    (data.length < len → (∀ k, e = .failed k → ∃ c', (TlsClient.read m len).run c = (.ok data, c') ∧ c'.buf = [] ∧ Same c'.reader s') ∧
      (e = .crash → ((TlsClient.read m len).run c).1 = .panic)) :=
  readLoop_there m (len + c.reader.reader.bytes + 1) len [] c data e s' (by rw [Reader.bytes_eq]; omega) h

/-! ### Proof: any number of calls -/

theorem There.after {c : TlsClient} {data : Bytes} {e : Halt} {s' : TlsReader} (h : There c data e s') {k : TlsErrorKind} (he : e = .failed k) : Room s' ∧ HasDecryptor s' := by
  obtain ⟨s, ds, _, hr, hd, _, ha⟩ := h
  exact ha.after hr hd he

theorem HandsOut.run (m : Mode) {data : Bytes} {e : Halt} {s' : TlsReader} {lens : List Nat} {rs : List (Res Bytes)} (h : HandsOut data e s' lens rs) :
    ∀ c : TlsClient, There c data e s' → (readMany m lens c).1 = rs := by
  induction h with
  | nil => intro c _; rfl
  | full hle _ ih =>
    intro c hc
    obtain ⟨c', h1, h2⟩ := (read_there m _ c _ _ _ hc).1 hle
    simp only [readMany, h1, ih c' h2]
  | short hlt ha _ ih =>
    intro c hc
    obtain ⟨c', h1, h2, h3⟩ := ((read_there m _ c _ _ _ hc).2 hlt).1 _ rfl
    obtain ⟨a, b⟩ := hc.after rfl
    simp only [readMany, h1, ih c' ⟨_, _, h3, a, b, by rw [h2]; rfl, ha⟩]
  | crash hlt =>
    intro c hc
    have h1 := ((read_there m _ c _ _ _ hc).2 hlt).2 rfl
    rcases hx : (TlsClient.read m _).run c with ⟨x, c'⟩
    rw [hx] at h1
    simp only at h1
    subst h1
    simp only [readMany, hx]

theorem handsOut_total (lens : List Nat) : ∀ (data : Bytes) (e : Halt) (s : TlsReader), (∀ k, e = .failed k → Room s ∧ HasDecryptor s) → ∃ rs, HandsOut data e s lens rs := by
  induction lens with
  | nil => intro data e s _; exact ⟨_, .nil⟩
  | cons len lens ih =>
    intro data e s h
    by_cases hle : len ≤ data.length
    · obtain ⟨rs, g⟩ := ih (data.drop len) e s h
      exact ⟨_, .full hle g⟩
    · cases e with
      | crash => exact ⟨_, .crash (by omega)⟩
      | failed k =>
        obtain ⟨a, b⟩ := h k rfl
        obtain ⟨data', e', s', hA⟩ := arrives_total s a b
        obtain ⟨rs, g⟩ := ih data' e' s' (fun k' he => hA.after a b he)
        exact ⟨_, .short (by omega) hA g⟩

/-! ### C108 -/

/-- C108: what arrives is determined by the transport. -/
theorem C108_arrives (s : TlsReader) (hr : Room s) (hd : HasDecryptor s) : ∃ data e s', Arrives s data e s' ∧
    ∀ data1 e1 s1, Arrives s data1 e1 s1 → data1 = data ∧ e1 = e ∧ ((∃ k, e = .failed k) → Same s1 s') := by
  obtain ⟨data, e, s', h⟩ := arrives_total s hr hd
  exact ⟨data, e, s', h, fun data1 e1 s1 h1 => h1.unique h (Same.refl _) hr⟩

/-- C108: any number of `read` calls with buffers of any lengths return what `HandsOut` says, and nothing else. -/
theorem C108_reads (m : Mode) (c : TlsClient) (data : Bytes) (e : Halt) (s' : TlsReader) (lens : List Nat) (rs : List (Res Bytes)) (hr : Room c.reader) (hd : HasDecryptor c.reader)
    (h : Arrives c.reader data e s') : (readMany m lens c).1 = rs ↔ HandsOut (c.buf ++ data) e s' lens rs := by
  have hT : There c (c.buf ++ data) e s' := ⟨c.reader, data, Same.refl _, hr, hd, rfl, h⟩
  constructor
  · intro hx
    obtain ⟨rs', g⟩ := handsOut_total lens (c.buf ++ data) e s' (fun k he => h.after hr hd he)
    rw [← hx, g.run m c hT]
    exact g
  · exact fun g => g.run m c hT

/-- C108: and from the beginning: the handshake completes as in `C107_connected`, `data` arrives on what is left of the stream; then `new` succeeds and the calls return what `HandsOut`
says. -/
theorem C108_session (m : Mode) (rd : Reader) (wr : Writer) (cr rest : Bytes) (hfa : wr.faults = []) (hcr : cr.length = 32) (hn : countBytes rd.stream + 1 < 2 ^ 64)
    {f : ServerFlight} {s s1 s2 s' : TlsReader} {rng' : Rng} {pub data : Bytes} {e : Halt} (hF : FlightComes m rd rest f s rng') (hp : f.keyData = 65 :: pub)
    (h1 : Comes { s with iv := some (f.keys cr).serverIv } (.ok .ChangeCipherSpecMessage) s1)
    (h2 : Comes (keyed m s1 (f.keys cr).serverKey) (.ok (.HandshakeMessage (.finished ⟨f.serverVerify cr pub⟩))) s2) (hA : Arrives s2 data e s') :
    ∃ c, TlsClient.new m rd wr ⟨cr ++ rest⟩ = (.ok (), c) ∧ ∀ lens rs, (readMany m lens c).1 = rs ↔ HandsOut data e s' lens rs := by
  obtain ⟨_, _, _, _, -, -, hr, hd, -⟩ := hF.reads hn
  obtain ⟨pub', t, w', hfit, hs, hh⟩ := hF.handshake (wr := wr) (cr := cr) hn hfa hcr
  have hpub : pub = pub' := by have := hp.symm.trans hfit.key; exact (List.cons.inj this).2
  subst hpub
  obtain ⟨t1, g1, e1⟩ := h1.runs m hr hs
  have e1 := e1 trivial
  obtain ⟨hr1, hk1⟩ := hF.changed (cr := cr) h1 hn hcr
  obtain ⟨t2, g2, e2⟩ := h2.runs m hr1 (t := keyed m t1 (f.keys cr).serverKey) ⟨e1.1, rfl, rfl, e1.2.2.2.1, e1.2.2.2.2⟩
  have e2 := e2 trivial
  obtain ⟨hr2, hd2, -⟩ := h2.kept hr1
  have hD : HasDecryptor s2 := (show HasDecryptor (keyed m s1 (f.keys cr).serverKey) from ⟨m, _, rfl, (hfit.keys_length hcr).2.1⟩).of_eq hd2
  refine ⟨{ fresh rd wr ⟨cr ++ rest⟩ with writer := w', rng := rng', reader := t2 }, ?_, fun lens rs => ?_⟩
  · rw [new_of_handshake m rd wr _ _ _ (by simp), hh, readFinished_eq hfit hcr (hs.2.1.trans hd) g1 g2, if_pos rfl]
  · have hT : There { fresh rd wr ⟨cr ++ rest⟩ with writer := w', rng := rng', reader := t2 } data e s' := ⟨s2, data, e2, hr2, hD, rfl, hA⟩
    constructor
    · intro hx
      obtain ⟨rs', g⟩ := handsOut_total lens data e s' (fun k he => hA.after hr2 hD he)
      rw [← hx, g.run m _ hT]
      exact g
    · exact fun g => g.run m _ hT

/-! ### Cases -/

/-- A record of the peer with application data comes. -/
theorem comes_data {w w' : TlsWriter} {d ct : Bytes} {s : TlsReader} {es : List Ev} (hsy : Synced w s) (hw : w.Wrote ⟨.ApplicationDataTy, 3, 3, d⟩ ct w') (hd : d.length ≤ 16384)
    (hb : s.handshakeBuffer = ⟨[]⟩) (hs : s.reader.stream = ofBytes (recordBytes 23 3 3 ct) ++ Reader.stream ⟨es⟩) :
    Comes s (.ok (.ApplicationDataMessage d)) { s with reader := ⟨es⟩, readCount := s.readCount + 1 } :=
  .message (r := ⟨.ApplicationDataTy, 3, 3, d⟩) (by rw [hb]; exact cut_nil)
    (.cons (s1 := { s with reader := ⟨es⟩, readCount := s.readCount + 1 }) (ty := .ApplicationDataTy) (a := 3) (b := 3) (f := ct) hw.short hs (hsy.unprotect hw (by have : RECORD_MAX_LEN = 16384 := rfl; simpa [this] using hd)) rfl rfl rfl
      (.nil rfl rfl rfl rfl)) rfl (.data rfl)

/-- The end of the stream. -/
theorem arrives_end (s : TlsReader) (hb : s.handshakeBuffer = ⟨[]⟩) (hs : s.reader = ⟨[]⟩) : Arrives s [] (.failed .IoFailure) s :=
  .failed (.noRecord (l := []) (by rw [hb]; exact cut_nil) (.stops [] [] ⟨by simp, by simp⟩ (by rw [hs]; exact Or.inl ⟨rfl, rfl⟩)) ⟨by rw [hs]; rfl, rfl, rfl, rfl, rfl⟩)

/-- The peer writes 1, 2, 3 and then 4, 5; in between the transport fails once. The second call shows the failure only by returning less than it asked for, the third goes on. -/
example (m : Mode) (c : TlsClient) (w w1 w2 : TlsWriter) (ct1 ct2 : Bytes) (hr : Room c.reader) (hd : HasDecryptor c.reader) (hsy : Synced w c.reader) (hb : c.buf = [])
    (hbuf : c.reader.handshakeBuffer = ⟨[]⟩) (h1 : w.Wrote ⟨.ApplicationDataTy, 3, 3, [1, 2, 3]⟩ ct1 w1) (h2 : w1.Wrote ⟨.ApplicationDataTy, 3, 3, [4, 5]⟩ ct2 w2)
    (hs : c.reader.reader = ⟨[.data (recordBytes 23 3 3 ct1), .fail false, .data (recordBytes 23 3 3 ct2)]⟩) :
    (readMany m [2, 5, 1, 0, 9] c).1 = [.ok [1, 2], .ok [3], .ok [4], .ok [], .ok [5]] := by
  have k1 := comes_data (es := [.fail false, .data (recordBytes 23 3 3 ct2)]) hsy h1 (by simp) hbuf (by rw [hs, Reader.stream_data _ (by simp [recordBytes])])
  have sy1 : Synced w1 { c.reader with reader := ⟨[.data (recordBytes 23 3 3 ct2)]⟩, readCount := c.reader.readCount + 1 } := hsy.step h1 rfl rfl rfl
  have k2 := comes_data (es := []) sy1 h2 (by simp) hbuf (by rw [Reader.stream_data _ (by simp [recordBytes])])
  have a1 : Arrives c.reader ([1, 2, 3] ++ []) (.failed .IoFailure) { c.reader with reader := ⟨[.data (recordBytes 23 3 3 ct2)]⟩, readCount := c.reader.readCount + 1 } :=
    .data k1 (.failed (.noRecord (l := Reader.stream ⟨[.data (recordBytes 23 3 3 ct2)]⟩) (by simp only [hbuf]; exact cut_nil)
      (.stops [] _ ⟨by simp, by simp⟩ (Or.inr rfl)) ⟨rfl, rfl, rfl, rfl, rfl⟩))
  have a2 := Arrives.data k2 (arrives_end { c.reader with reader := ⟨[]⟩, readCount := c.reader.readCount + 1 + 1 } hbuf rfl)
  rw [C108_reads m c _ _ _ _ _ hr hd a1, hb]
  have a3 := arrives_end { c.reader with reader := ⟨[]⟩, readCount := c.reader.readCount + 1 + 1 } hbuf rfl
  exact .full (len := 2) (by simp) (.short (by simp) a2 (.full (len := 1) (by simp) (.full (len := 0) (by simp) (.short (by simp) a3 .nil))))

end Husk
