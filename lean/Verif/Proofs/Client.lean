import Verif.Model.Client
import Verif.Props.RecordSecurity
/-! The loop of `TlsClient::read` in terms of successive `read_application_data` calls. -/

namespace Husk

open Spec TlsReader

theorem readApplicationData_consumes {m : Mode} {s s' : TlsReader} {b : Bytes} (h : (readApplicationData m).run s = (.ok b, s')) :
    countBytes s'.reader.stream + 5 ≤ countBytes s.reader.stream := by
  rw [readApplicationData, St.bind_run, St.get_run] at h
  simp only at h
  split at h
  · simp [St.panic_run] at h
  · obtain ⟨msg, s1, h1, h2⟩ := St.bind_eq_ok h
    obtain ⟨recs, ht, ho⟩ := readMessage_inv h1
    simp only [St.lift_run, Prod.mk.injEq] at h2
    obtain ⟨h2, rfl⟩ := h2
    have hne : recs ≠ [] := by
      cases msg with
      | HandshakeMessage h' => simp [applicationData] at h2
      | ChangeCipherSpecMessage => simp [applicationData] at h2
      | AlertMessage a => obtain ⟨pre, r, rfl, _⟩ := ho; simp
      | ApplicationDataMessage d => obtain ⟨pre, r, rfl, _⟩ := ho; simp
    have := ht.count
    have : 1 ≤ recs.length := List.length_pos_iff.mpr hne
    omega

/-- All results are `Ok`. -/
def AllOk (rs : List (Res Bytes)) : Prop := ∀ r ∈ rs, ∃ b, r = .ok b

/-- What `read` does, in terms of the results `rs` of the calls of `read_application_data` it makes. -/
def ReadsAs (buf : Bytes) (len : Nat) (rs : List (Res Bytes)) (buf' : Bytes) : Res Bytes → Prop
  | .ok out => buf ++ rs.flatMap delivered = out ++ buf' ∧
      ((out.length = len ∧ AllOk rs) ∨ (out.length < len ∧ buf' = [] ∧ ∃ rs0 k, rs = rs0 ++ [.err k] ∧ AllOk rs0))
  | .err _ => False
  | .panic => ∃ rs0, rs = rs0 ++ [.panic] ∧ AllOk rs0
  | .diverge => ∃ rs0, rs = rs0 ++ [.diverge] ∧ AllOk rs0

/-- `read_application_data` is called only as long as there are fewer bytes than asked for. -/
def Needed (buf : Bytes) (len : Nat) (rs : List (Res Bytes)) : Prop :=
  ∀ j < rs.length, (buf ++ (rs.take j).flatMap delivered).length < len

theorem Needed.nil (buf : Bytes) (len : Nat) : Needed buf len [] := by intro j hj; simp at hj

theorem Needed.one {buf : Bytes} {len : Nat} (h : buf.length < len) (r : Res Bytes) : Needed buf len [r] := by
  intro j hj
  have : j = 0 := by simp at hj; omega
  subst this
  simpa using h

theorem Needed.cons {len : Nat} {rs : List (Res Bytes)} {data : Bytes} (h0 : len ≠ 0) (h : Needed (data.drop (min len data.length)) (len - min len data.length) rs) :
    Needed [] len (.ok data :: rs) := by
  intro j hj
  cases j with
  | zero => simp; omega
  | succ j =>
    have := h j (by simpa using hj)
    simp only [List.length_append, List.length_drop] at this
    simp only [List.take_succ_cons, List.flatMap_cons, delivered, List.length_append, List.nil_append]
    omega

theorem Needed.buffered {buf : Bytes} {len : Nat} {rs : List (Res Bytes)} (h : Needed (buf.drop (min len buf.length)) (len - min len buf.length) rs) :
    Needed buf len rs := by
  intro j hj
  have := h j hj
  simp only [List.length_append, List.length_drop] at this ⊢
  omega

theorem AllOk.cons {b : Bytes} {rs : List (Res Bytes)} (h : AllOk rs) : AllOk (.ok b :: rs) := by
  intro r hr
  rcases List.mem_cons.mp hr with rfl | hr
  · exact ⟨_, rfl⟩
  · exact h r hr

theorem AllOk.nil : AllOk [] := by intro r hr; simp at hr

namespace TlsClient

theorem readLoop_zero (m : Mode) (fuel : Nat) (acc : Bytes) : readLoop m fuel 0 acc = pure acc := by
  rw [readLoop.eq_def]; dsimp only; rw [if_pos rfl]

theorem readLoop_succ (m : Mode) (fuel rem : Nat) (acc : Bytes) (h : rem ≠ 0) (c : TlsClient) : (readLoop m (fuel + 1) rem acc).run c =
    match (refill m).run c with
    | (.ok true, c) => (readLoop m fuel (rem - min rem c.buf.length) (acc ++ c.buf.take (min rem c.buf.length))).run
        { c with buf := c.buf.drop (min rem c.buf.length) }
    | (.ok false, c) => (.ok acc, c)
    | (.err k, c) => (.err k, c)
    | (.panic, c) => (.panic, c)
    | (.diverge, c) => (.diverge, c) := by
  rw [readLoop.eq_def]
  dsimp only
  rw [if_neg h]
  simp only [St.bind_run]
  rcases (refill m).run c with ⟨x, c1⟩
  cases x with
  | ok b => cases b <;> rfl
  | err k => rfl
  | panic => rfl
  | diverge => rfl

/-- Prepending a successful call. -/
theorem ReadsAs.cons {buf : Bytes} {len : Nat} {rs : List (Res Bytes)} {buf' data acc : Bytes} {n : Nat} {x : Res Bytes} (hb : buf = [])
    (hn : n = min len data.length) (h : ReadsAs (data.drop n) (len - n) rs buf' x) :
    ReadsAs buf len (.ok data :: rs) buf' (x >>= fun o => .ok (data.take n ++ o)) := by
  subst hb
  cases x with
  | ok out =>
    obtain ⟨h1, h2⟩ := h
    have hl : (data.take n).length = n := by rw [List.length_take]; omega
    refine ⟨?_, ?_⟩
    · rw [List.flatMap_cons, List.append_assoc, ← h1, ← List.append_assoc (List.take n data), List.take_append_drop]; rfl
    · rcases h2 with ⟨h2, h3⟩ | ⟨h2, h3, rs0, k, h4, h5⟩
      · left; exact ⟨by rw [List.length_append, hl, h2]; omega, h3.cons⟩
      · right; exact ⟨by rw [List.length_append, hl]; omega, h3, .ok data :: rs0, k, by rw [h4]; rfl, h5.cons⟩
  | err k => exact h
  | panic => obtain ⟨rs0, h1, h2⟩ := h; exact ⟨.ok data :: rs0, by rw [h1]; rfl, h2.cons⟩
  | diverge => obtain ⟨rs0, h1, h2⟩ := h; exact ⟨.ok data :: rs0, by rw [h1]; rfl, h2.cons⟩

theorem ReadsAs.buffered {buf : Bytes} {len : Nat} {rs : List (Res Bytes)} {buf' : Bytes} {n : Nat} {x : Res Bytes}
    (hn : n = min len buf.length) (h : ReadsAs (buf.drop n) (len - n) rs buf' x) :
    ReadsAs buf len rs buf' (x >>= fun o => .ok (buf.take n ++ o)) := by
  cases x with
  | ok out =>
    obtain ⟨h1, h2⟩ := h
    have hl : (buf.take n).length = n := by rw [List.length_take]; omega
    refine ⟨?_, ?_⟩
    · rw [List.append_assoc, ← h1, ← List.append_assoc (List.take n buf), List.take_append_drop]
    · rcases h2 with ⟨h2, h3⟩ | ⟨h2, h3, h4⟩
      · left; exact ⟨by rw [List.length_append, hl, h2]; omega, h3⟩
      · right; exact ⟨by rw [List.length_append, hl]; omega, h3, h4⟩
  | err k => exact h
  | panic => exact h
  | diverge => exact h

theorem readLoop_spec (m : Mode) : ∀ (fuel rem : Nat) (acc : Bytes) (c : TlsClient), countBytes c.reader.reader.stream + rem < fuel →
    ∃ (n : Nat) (x : Res Bytes) (c' : TlsClient), (readLoop m fuel rem acc).run c = (x >>= fun o => .ok (acc ++ o), c') ∧
      c' = { c with reader := (readApp m n c.reader).2, buf := c'.buf } ∧ ReadsAs c.buf rem (readApp m n c.reader).1 c'.buf x ∧
      Needed c.buf rem (readApp m n c.reader).1 := by
  intro fuel
  induction fuel with
  | zero => intro rem acc c h; omega
  | succ fuel ih =>
    intro rem acc c hf
    by_cases h0 : rem = 0
    · subst h0
      refine ⟨0, .ok [], c, ?_, rfl, ⟨?_, Or.inl ⟨rfl, AllOk.nil⟩⟩, Needed.nil _ _⟩
      · rw [readLoop_zero]; simp [St.pure_run]
      · simp [readApp]
    · rw [readLoop_succ _ _ _ _ h0]
      by_cases hb : c.buf = []
      · have hr : (refill m).run c = match (onReader (readApplicationData m)).run c with
          | (.ok data, c) => (.ok true, { c with buf := c.buf ++ data })
          | (.err _, c) => (.ok false, c)
          | (.panic, c) => (.panic, c)
          | (.diverge, c) => (.diverge, c) := by
          simp only [refill, hb, List.isEmpty_nil, if_true]
          rcases (onReader (readApplicationData m)).run c with ⟨y, s1⟩
          cases y <;> rfl
        rw [hr]
        simp only [onReader, St.zoom_run]
        rcases hx : (readApplicationData m).run c.reader with ⟨y, s1⟩
        have one : ∀ (y : Res Bytes), (readApplicationData m).run c.reader = (y, s1) → readApp m 1 c.reader = ([y], s1) := by
          intro y h; simp [readApp, h]
        cases y with
        | ok data =>
          simp only
          have hc := readApplicationData_consumes hx
          obtain ⟨n, x, c', e1, e2, e3, e4⟩ := ih (rem - min rem (c.buf ++ data).length) (acc ++ (c.buf ++ data).take (min rem (c.buf ++ data).length))
            { c with reader := s1, buf := (c.buf ++ data).drop (min rem (c.buf ++ data).length) } (by simp only; omega)
          refine ⟨n + 1, x >>= fun o => .ok (data.take (min rem data.length) ++ o), c', ?_, ?_, ?_⟩
          · rw [e1]
            rw [hb]
            cases x <;> simp
          · rw [e2]; simp [readApp, hx]
          · have : (readApp m (n + 1) c.reader).1 = .ok data :: (readApp m n s1).1 := by simp [readApp, hx]
            rw [this]
            refine ⟨ReadsAs.cons (acc := acc) hb rfl (by simpa [hb] using e3), ?_⟩
            rw [hb]
            exact Needed.cons h0 (by simpa [hb] using e4)
        | err k =>
          refine ⟨1, .ok [], { c with reader := s1 }, by simp, ?_, ⟨?_, Or.inr ⟨by simp; omega, hb, [], k, by simp [one _ hx], AllOk.nil⟩⟩, ?_⟩
          · simp [one _ hx]
          · simp [one _ hx, hb, delivered]
          · rw [one _ hx]; exact Needed.one (by simp [hb]; omega) _
        | panic =>
          exact ⟨1, .panic, { c with reader := s1 }, by simp, by simp [one _ hx], ⟨[], by simp [one _ hx], AllOk.nil⟩, by rw [one _ hx]; exact Needed.one (by simp [hb]; omega) _⟩
        | diverge =>
          exact ⟨1, .diverge, { c with reader := s1 }, by simp, by simp [one _ hx], ⟨[], by simp [one _ hx], AllOk.nil⟩, by rw [one _ hx]; exact Needed.one (by simp [hb]; omega) _⟩
      · have hr : (refill m).run c = (.ok true, c) := by
          simp only [refill, List.isEmpty_iff, hb, if_false]
        rw [hr]
        simp only
        have : 1 ≤ c.buf.length := List.length_pos_iff.mpr hb
        obtain ⟨n, x, c', e1, e2, e3, e4⟩ := ih (rem - min rem c.buf.length) (acc ++ c.buf.take (min rem c.buf.length))
            { c with buf := c.buf.drop (min rem c.buf.length) } (by simp only; omega)
        refine ⟨n, x >>= fun o => .ok (c.buf.take (min rem c.buf.length) ++ o), c', ?_, ?_, ?_⟩
        · rw [e1]; cases x <;> simp
        · exact e2
        · exact ⟨ReadsAs.buffered rfl e3, e4.buffered⟩

/-- `read` is successive `read_application_data` calls. -/
theorem read_spec (m : Mode) (len : Nat) (c : TlsClient) : ∃ (n : Nat) (x : Res Bytes) (c' : TlsClient), (read m len).run c = (x, c') ∧
    c' = { c with reader := (readApp m n c.reader).2, buf := c'.buf } ∧ ReadsAs c.buf len (readApp m n c.reader).1 c'.buf x ∧ Needed c.buf len (readApp m n c.reader).1 := by
  obtain ⟨n, x, c', h1, h2, h3⟩ := readLoop_spec m (len + c.reader.reader.bytes + 1) len [] c (by rw [Reader.bytes_eq]; omega)
  refine ⟨n, x, c', ?_, h2, h3⟩
  have : (read m len).run c = (readLoop m (len + c.reader.reader.bytes + 1) len []).run c := rfl
  rw [this, h1]
  cases x <;> simp

end TlsClient


/-! ### Records of the peer on their way -/

/-- No complete handshake message is left in the buffer. -/
def NoMessage (b : HandshakeBuffer) : Prop := HandshakeBuffer.getMessage.run b = (.ok none, b)

theorem NoMessage.empty : NoMessage {} := rfl

/-- A record the peer wrote is read. -/
theorem readRecord_wrote (m : Mode) {w w' : TlsWriter} {rec : Record} {ct : Bytes} {s : TlsReader} {l : List Sym} (hsy : Synced w s) (hw : w.Wrote rec ct w')
    (hf : rec.fragment.length ≤ RECORD_MAX_LEN) (hn : w.writeCount.toNat + 1 < 2 ^ 64)
    (hs : s.reader.stream = ofBytes (recordBytes rec.contentType.toU8 rec.verMajor rec.verMinor ct) ++ l) :
    ∃ r', (readRecord m).run s = (.ok rec, { s with reader := r', readCount := s.readCount + 1 }) ∧ r'.stream = l ∧
      Synced w' { s with reader := r', readCount := s.readCount + 1 } := by
  obtain ⟨r1, e1, h1⟩ := readRecord_front (m := m) hw.short hs
  have hu := hsy.unprotect hw hf
  refine ⟨r1, ?_, e1, hsy.step hw rfl rfl rfl⟩
  rw [h1, finish_run]
  have : TlsReader.unprotect { s with reader := r1 } rec.contentType rec.verMajor rec.verMinor ct = .ok rec := hu
  rw [this]
  simp only
  rw [TlsReader.bump_ok m { s with reader := r1 } (by show s.readCount.toNat + 1 < 2 ^ 64; rw [hsy.1]; exact hn)]
  rfl

/-- The message a record makes; for handshake records, what becomes of one that is empty. -/
def recordMessage (r : Record) : Res Message :=
  match r.contentType with
  | .ChangeCipherSpecTy => ccsMessage r.fragment
  | .AlertTy => alertMessage r.fragment
  | .ApplicationDataTy => .ok (.ApplicationDataMessage r.fragment)
  | .HandshakeTy => .err .UnexpectedMessage

theorem readMessage_record {m : Mode} {s s1 : TlsReader} {rec : Record} (hg : NoMessage s.handshakeBuffer) (h : (readRecord m).run s = (.ok rec, s1))
    (hty : rec.contentType ≠ .HandshakeTy) : (readMessage m).run s = (recordMessage rec, s1) := by
  have h1 : (onBuffer HandshakeBuffer.getMessage).run s = (.ok none, s) := by
    simp only [onBuffer, St.zoom_run]
    rw [hg]
  rw [readMessage, St.bind_of_ok h1]
  simp only [St.get_run, St.bind_run, messageLoop, messageStep]
  rw [h]
  unfold recordMessage
  cases hc : rec.contentType with
  | HandshakeTy => exact absurd hc hty
  | ChangeCipherSpecTy => simp only [hc, St.bind_run, St.lift_run]; cases ccsMessage rec.fragment <;> rfl
  | AlertTy => simp only [hc, St.bind_run, St.lift_run]; cases alertMessage rec.fragment <;> rfl
  | ApplicationDataTy => simp only [hc, St.pure_run]

theorem readApplicationData_message {m : Mode} {s s1 : TlsReader} {x : Res Message} (hd : s.decryptor.isSome) (h : (readMessage m).run s = (x, s1)) :
    (readApplicationData m).run s = (x >>= applicationData, s1) := by
  rw [readApplicationData, St.bind_run, St.get_run]
  simp only
  rw [if_neg (by cases hx : s.decryptor <;> simp_all)]
  rw [St.bind_run, h]
  cases x <;> rfl

theorem readApplicationData_record {m : Mode} {s s1 : TlsReader} {rec : Record} (hd : s.decryptor.isSome) (hg : NoMessage s.handshakeBuffer)
    (h : (readRecord m).run s = (.ok rec, s1)) (hty : rec.contentType ≠ .HandshakeTy) :
    (readApplicationData m).run s = (recordMessage rec >>= applicationData, s1) :=
  readApplicationData_message hd (readMessage_record hg h hty)

/-- A record that `read_application_data` takes without complaint, and the data it hands out for it. -/
def Hands (rec : Record) (b : Bytes) : Prop := rec.contentType ≠ .HandshakeTy ∧ (recordMessage rec >>= applicationData) = .ok b

theorem hands_app {rec : Record} (h : rec.contentType = .ApplicationDataTy) : Hands rec rec.fragment :=
  ⟨by rw [h]; simp, by simp [recordMessage, h, applicationData]⟩

theorem forall₂_length {R : α → β → Prop} {a : List α} {b : List β} (h : List.Forall₂ R a b) : a.length = b.length := by
  induction h with
  | nil => rfl
  | cons _ _ ih => rw [List.length_cons, List.length_cons, ih]

/-- The bytes of records on the wire. -/
def wireOf (sent : List (Record × Bytes)) : Bytes :=
  sent.flatMap fun rc => recordBytes rc.1.contentType.toU8 rc.1.verMajor rc.1.verMinor rc.2

/-- The reader `s` has exactly the records `sent` of the peer (going from state `w` to `w'`) before it, then `l`; the data they hand out is `ds`. -/
structure Pending (w : TlsWriter) (sent : List (Record × Bytes)) (ds : List Bytes) (w' : TlsWriter) (l : List Sym) (s : TlsReader) : Prop where
  ok : w.Sent sent w'
  synced : Synced w s
  decrypts : s.decryptor.isSome
  noMessage : NoMessage s.handshakeBuffer
  short : ∀ rc ∈ sent, rc.1.fragment.length ≤ RECORD_MAX_LEN
  count : w.writeCount.toNat + sent.length < 2 ^ 64
  hands : List.Forall₂ (fun rc b => Hands rc.1 b) sent ds
  stream : s.reader.stream = ofBytes (wireOf sent) ++ l

theorem Pending.step (m : Mode) {w w' : TlsWriter} {rc : Record × Bytes} {sent : List (Record × Bytes)} {d : Bytes} {ds : List Bytes} {l : List Sym} {s : TlsReader}
    (h : Pending w (rc :: sent) (d :: ds) w' l s) : ∃ w1 s1, (readApplicationData m).run s = (.ok d, s1) ∧ Pending w1 sent ds w' l s1 := by
  obtain ⟨hsent, hsy, hd, hg, hsh, hc, hh, hst⟩ := h
  cases hsent with
  | @cons _ w1 _ rec ct _ hw hrest =>
    cases hh with
    | cons hh1 hh2 =>
      simp only [List.length_cons] at hc
      rw [wireOf, List.flatMap_cons, ofBytes_append, List.append_assoc] at hst
      obtain ⟨r', h1, h2, h3⟩ := readRecord_wrote m hsy hw (hsh (rec, ct) (by simp)) (by omega) hst
      refine ⟨w1, { s with reader := r', readCount := s.readCount + 1 }, ?_, hrest, h3, hd, hg, fun rc h => hsh rc (List.mem_cons_of_mem _ h), ?_, hh2, h2⟩
      · rw [readApplicationData_record hd hg h1 hh1.1, hh1.2]
      · have h1 : (1 : UInt64).toNat = 1 := rfl
        rw [hw.count, UInt64.toNat_add, h1]; omega

theorem Pending.readApp (m : Mode) {w w' : TlsWriter} {sent : List (Record × Bytes)} {ds : List Bytes} {l : List Sym} {s : TlsReader} (h : Pending w sent ds w' l s)
    (n : Nat) (hn : n ≤ sent.length) : (readApp m n s).1 = (ds.take n).map .ok ∧ ∃ w1, Pending w1 (sent.drop n) (ds.drop n) w' l (readApp m n s).2 := by
  induction n generalizing w sent ds s with
  | zero => exact ⟨by simp [Husk.readApp], w, by simpa [Husk.readApp] using h⟩
  | succ n ih =>
    cases sent with
    | nil => simp at hn
    | cons rc sent =>
      have hh := h.hands
      cases ds with
      | nil => cases hh
      | cons d ds =>
        obtain ⟨w1, s1, h1, h2⟩ := h.step m
        obtain ⟨h3, w2, h4⟩ := ih h2 (by simpa using hn)
        refine ⟨?_, w2, ?_⟩
        · simp [Husk.readApp, h1, h3]
        · simpa [Husk.readApp, h1] using h4

theorem readApp_add (m : Mode) (a b : Nat) (s : TlsReader) :
    readApp m (a + b) s = ((readApp m a s).1 ++ (readApp m b (readApp m a s).2).1, (readApp m b (readApp m a s).2).2) := by
  induction a generalizing s with
  | zero => simp [readApp]
  | succ a ih =>
    rw [Nat.add_right_comm]
    simp only [readApp, ih]
    simp

theorem readApp_length (m : Mode) (n : Nat) (s : TlsReader) : (readApp m n s).1.length = n := by
  induction n generalizing s with
  | zero => rfl
  | succ n ih => simp [readApp, ih]

theorem readApp_take (m : Mode) {j n : Nat} (h : j ≤ n) (s : TlsReader) : (readApp m n s).1.take j = (readApp m j s).1 := by
  obtain ⟨k, rfl⟩ := Nat.exists_eq_add_of_le h
  rw [readApp_add]
  simp only
  rw [List.take_append_of_le_length (by rw [readApp_length]), List.take_of_length_le (by rw [readApp_length])]

theorem flatMap_delivered_ok (ds : List Bytes) : (ds.map Res.ok).flatMap delivered = ds.flatten := by
  induction ds with
  | nil => rfl
  | cons d ds ih => rw [List.map_cons, List.flatMap_cons, ih, List.flatten_cons]; rfl

theorem AllOk_map (ds : List Bytes) : AllOk (ds.map Res.ok) := by
  intro r hr
  obtain ⟨b, _, rfl⟩ := List.mem_map.mp hr
  exact ⟨b, rfl⟩

/-- A `read` that asks for no more than there is. -/
theorem Pending.read (m : Mode) {w w' : TlsWriter} {sent : List (Record × Bytes)} {ds : List Bytes} {l : List Sym} {c : TlsClient}
    (h : Pending w sent ds w' l c.reader) (len : Nat) (hlen : len ≤ (c.buf ++ ds.flatten).length) :
    ∃ c' w1 sent1 ds1, (TlsClient.read m len).run c = (.ok ((c.buf ++ ds.flatten).take len), c') ∧ Pending w1 sent1 ds1 w' l c'.reader ∧
      c'.buf ++ ds1.flatten = (c.buf ++ ds.flatten).drop len ∧ c'.writer = c.writer ∧ c'.rng = c.rng := by
  obtain ⟨n, x, c', h1, h2, h3, h4⟩ := TlsClient.read_spec m len c
  have hn : n ≤ sent.length := by
    rcases Nat.lt_or_ge sent.length n with hlt | hge
    · exfalso
      have := h4 sent.length (by rw [readApp_length]; exact hlt)
      rw [readApp_take m (by omega), (h.readApp m sent.length (Nat.le_refl _)).1] at this
      have hl : sent.length = ds.length := forall₂_length h.hands
      rw [hl, List.take_of_length_le (Nat.le_refl _), flatMap_delivered_ok] at this
      omega
    · exact hge
  obtain ⟨e1, w1, e2⟩ := h.readApp m n hn
  rw [e1] at h3
  have hds : ds = ds.take n ++ ds.drop n := (List.take_append_drop n ds).symm
  have hok : ∃ out, x = .ok out ∧ out.length = len ∧ c.buf ++ (ds.take n).flatten = out ++ c'.buf := by
    cases x with
    | ok out =>
      obtain ⟨h5, h6⟩ := h3
      rw [flatMap_delivered_ok] at h5
      rcases h6 with ⟨h6, _⟩ | ⟨_, _, rs0, k, h7, _⟩
      · exact ⟨out, rfl, h6, h5⟩
      · have : (Res.err k : Res Bytes) ∈ (ds.take n).map Res.ok := by rw [h7]; simp
        obtain ⟨b, hb⟩ := AllOk_map _ _ this
        cases hb
    | err k => exact absurd h3 id
    | panic =>
      obtain ⟨rs0, h7, _⟩ := h3
      have : (Res.panic : Res Bytes) ∈ (ds.take n).map Res.ok := by rw [h7]; simp
      obtain ⟨b, hb⟩ := AllOk_map _ _ this
      cases hb
    | diverge =>
      obtain ⟨rs0, h7, _⟩ := h3
      have : (Res.diverge : Res Bytes) ∈ (ds.take n).map Res.ok := by rw [h7]; simp
      obtain ⟨b, hb⟩ := AllOk_map _ _ this
      cases hb
  obtain ⟨out, rfl, h5, h6⟩ := hok
  have hall : c.buf ++ ds.flatten = out ++ (c'.buf ++ (ds.drop n).flatten) := by
    rw [hds, List.flatten_append, ← List.append_assoc, h6]; simp
  refine ⟨c', w1, sent.drop n, ds.drop n, ?_, ?_, ?_, by rw [h2], by rw [h2]⟩
  · rw [h1, hall, List.take_left' h5]
  · rw [h2]; exact e2
  · rw [hall, List.drop_left' h5]

/-- The records of one `write_data` call. -/
theorem hands_of_records {ty : ContentType} {cs : List Bytes} {sent : List (Record × Bytes)} (hty : ty = .ApplicationDataTy)
    (h : sent.map (·.1) = TlsWriter.recordsOf ty cs) : List.Forall₂ (fun (rc : Record × Bytes) b => Hands rc.1 b) sent cs := by
  subst hty
  induction cs generalizing sent with
  | nil =>
    cases sent with
    | nil => exact .nil
    | cons => simp [TlsWriter.recordsOf] at h
  | cons c cs ih =>
    cases sent with
    | nil => simp [TlsWriter.recordsOf] at h
    | cons rc sent =>
      simp only [TlsWriter.recordsOf, List.map_cons, List.cons.injEq] at h
      refine .cons ?_ (ih h.2)
      have := hands_app (rec := rc.1) (by rw [h.1])
      rw [h.1] at this ⊢
      exact this

end Husk
