import Verif.Props.SessionData
/-! C73: whatever arrives, the client never holds more than one maximal handshake message plus one record, and one record of data not yet read. -/

namespace Husk

open Item Spec TlsReader TlsClient

/-! ### Proofs -/

/-- `Q` holds of a returned value and the state, `I` of the state after any other outcome. -/
def Holds (Q : α → σ → Prop) (I : σ → Prop) : Res α × σ → Prop
  | (.ok a, s') => Q a s'
  | (_, s') => I s'

/-- From every state satisfying `P`: if `x` returns `a`, `Q a` holds of the new state; otherwise `I` does. -/
def Post (P : σ → Prop) (x : St σ α) (Q : α → σ → Prop) (I : σ → Prop) : Prop := ∀ s, P s → Holds Q I (x.run s)

namespace Post

variable {P : σ → Prop} {Q : α → σ → Prop} {R : β → σ → Prop} {I : σ → Prop}

theorem bind {x : St σ α} {f : α → St σ β} (hx : Post P x Q I) (hf : ∀ a, Post (Q a) (f a) R I) : Post P (x >>= f) R I := by
  intro s hs
  have h := hx s hs
  rw [St.bind_run]
  generalize x.run s = r at h ⊢
  obtain ⟨r, s'⟩ := r
  cases r with
  | ok a => exact hf a s' h
  | err k => exact h
  | panic => exact h
  | diverge => exact h

theorem weaken {x : St σ α} {P' : σ → Prop} {Q' : α → σ → Prop} (hx : Post P x Q I) (hp : ∀ s, P' s → P s) (hq : ∀ a s, Q a s → Q' a s) : Post P' x Q' I := by
  intro s hs
  have h := hx s (hp s hs)
  generalize x.run s = r at h ⊢
  obtain ⟨r, s'⟩ := r
  cases r with
  | ok a => exact hq a s' h
  | err k => exact h
  | panic => exact h
  | diverge => exact h

theorem pure {a : α} (h : ∀ s, P s → Q a s) : Post P (Pure.pure a : St σ α) Q I := fun s hs => h s hs
theorem err {k : TlsErrorKind} (h : ∀ s, P s → I s) : Post P (St.err k : St σ α) Q I := fun s hs => h s hs
theorem lift (r : Res α) (hq : ∀ a s, r = .ok a → P s → Q a s) (h : ∀ s, P s → I s) : Post P (St.lift r) Q I := by
  intro s hs
  rw [St.lift_run]
  cases r with
  | ok a => exact hq a s rfl hs
  | err k => exact h s hs
  | panic => exact h s hs
  | diverge => exact h s hs

theorem get_bind {f : σ → St σ β} (h : ∀ c, Post P (f c) R I) : Post P (St.get >>= f) R I := fun s hs => by
  rw [St.bind_run, St.get_run]; exact h s s hs
theorem ite {p : Prop} [Decidable p] {x y : St σ α} (hx : Post P x Q I) (hy : Post P y Q I) : Post P (if p then x else y) Q I := by
  split
  · exact hx
  · exact hy

theorem ok {x : St σ α} (h : Post P x Q I) {s s' : σ} {a : α} (hs : P s) (hx : x.run s = (.ok a, s')) : Q a s' := by
  have := h s hs; rw [hx] at this; exact this
theorem err' {x : St σ α} (h : Post P x Q I) {s s' : σ} {k : TlsErrorKind} (hs : P s) (hx : x.run s = (.err k, s')) : I s' := by
  have := h s hs; rw [hx] at this; exact this
theorem any {x : St σ α} (h : Post P x (fun _ => I) I) {s : σ} (hs : P s) : I (x.run s).2 := by
  have := h s hs
  generalize x.run s = r at this ⊢
  obtain ⟨r, s'⟩ := r
  cases r <;> exact this

end Post

/-- The bound on the buffer while a message is incomplete. -/
def Short (s : TlsReader) : Prop := s.handshakeBuffer.buf.length < 2 ^ 24 + 4
/-- The bound on the buffer at any time. -/
def Within (s : TlsReader) : Prop := s.handshakeBuffer.buf.length < 2 ^ 24 + 4 + 2 ^ 14

theorem Short.within {s : TlsReader} (h : Short s) : Within s := by unfold Short at h; unfold Within; omega

theorem getMessage_within : Post Within (TlsReader.onBuffer HandshakeBuffer.getMessage) (fun o s => Within s ∧ (o = none → Short s)) Within := by
  intro s hs
  simp only [TlsReader.onBuffer, St.zoom_run, HandshakeBuffer.getMessage]
  have hb : beNat ((s.handshakeBuffer.buf.drop 1).take 3) < 2 ^ 24 := by
    have h1 := beNat_lt ((s.handshakeBuffer.buf.drop 1).take 3)
    have h2 : ((s.handshakeBuffer.buf.drop 1).take 3).length ≤ 3 := by simp
    exact lt_of_lt_of_le h1 (by
      calc 256 ^ ((s.handshakeBuffer.buf.drop 1).take 3).length ≤ 256 ^ 3 := Nat.pow_le_pow_right (by omega) h2
        _ = 2 ^ 24 := by norm_num)
  unfold Within at hs
  split
  · refine ⟨hs, fun _ => ?_⟩
    show s.handshakeBuffer.buf.length < 2 ^ 24 + 4
    omega
  · split
    · refine ⟨hs, fun _ => ?_⟩
      show s.handshakeBuffer.buf.length < 2 ^ 24 + 4
      omega
    · have hd : (s.handshakeBuffer.buf.drop (beNat ((s.handshakeBuffer.buf.drop 1).take 3) + 4)).length < 2 ^ 24 + 4 + 2 ^ 14 := by
        rw [List.length_drop]; omega
      generalize ((TlsItem.read (α := Handshake)).run (s.handshakeBuffer.buf.take (beNat ((s.handshakeBuffer.buf.drop 1).take 3) + 4))).1 = r
      cases r with
      | ok h => exact ⟨hd, fun h => by cases h⟩
      | err k => exact hd
      | panic => exact hd
      | diverge => exact hd

theorem io_keeps (x : St Reader α) (P : HandshakeBuffer → Prop) : Post (fun s => P s.handshakeBuffer) (TlsReader.io x) (fun _ s => P s.handshakeBuffer) (fun s => P s.handshakeBuffer) := by
  intro s hs
  simp only [TlsReader.io, St.zoom_run]
  generalize x.run s.reader = r
  obtain ⟨r, s'⟩ := r
  cases r <;> exact hs

theorem unprotect_length {s : TlsReader} {ty : ContentType} {a b : UInt8} {f : Bytes} {rec : Record} (h : s.unprotect ty a b f = .ok rec) : rec.fragment.length ≤ 2 ^ 14 := by
  have hn : ∀ {d : Bytes} {rec : Record}, Record.new ty a b d = .ok rec → rec.fragment.length ≤ 2 ^ 14 := by
    intro d rec h
    unfold Record.new at h
    split at h
    · cases h
    · rename_i hl
      cases h
      simpa [RECORD_MAX_LEN] using hl
  unfold TlsReader.unprotect at h
  cases hd : s.decryptor with
  | none =>
    simp only [hd] at h
    split at h
    · cases h
    · exact hn h
  | some d =>
    simp only [hd] at h
    split at h
    · cases h
    · obtain ⟨data, h1, h2⟩ := Res.bind_eq_ok.mp h
      split at h2
      · cases h2
      · exact hn h2

theorem readRecord_keeps (m : Mode) (P : HandshakeBuffer → Prop) :
    Post (fun s => P s.handshakeBuffer) (readRecord m) (fun rec s => P s.handshakeBuffer ∧ rec.fragment.length ≤ 2 ^ 14) (fun s => P s.handshakeBuffer) := by
  refine Post.bind (io_keeps _ P) fun ty => ?_
  cases ContentType.ofU8 ty with
  | none => exact Post.err fun _ h => h
  | some ty =>
    refine Post.bind (io_keeps _ P) fun a => Post.bind (io_keeps _ P) fun b => Post.bind (io_keeps _ P) fun len => ?_
    refine Post.ite (Post.err fun _ h => h) ?_
    · refine Post.bind (io_keeps _ P) fun f => Post.get_bind fun c => ?_
      refine Post.bind (Post.lift (Q := fun rec s => P s.handshakeBuffer ∧ rec.fragment.length ≤ 2 ^ 14) _ (fun rec t h ht => ⟨ht, unprotect_length h⟩) fun _ h => h) fun rec => ?_
      refine Post.bind (Q := fun _ s => P s.handshakeBuffer ∧ rec.fragment.length ≤ 2 ^ 14) ?_ fun _ => Post.pure fun _ h => h
      rintro t ⟨ht, hl⟩
      simp only [TlsReader.bump]
      cases addU64 m t.readCount 1 with
      | ok n => exact ⟨ht, hl⟩
      | err k => exact ht
      | panic => exact ht
      | diverge => exact ht

theorem messageStep_within (m : Mode) : Post Short (messageStep m)
    (fun o s => Within s ∧ (o = none → Short s) ∧ ∀ d, o = some (.ApplicationDataMessage d) → d.length ≤ 2 ^ 14) Within := by
  have h0 : Post Short (readRecord m) (fun rec s => Short s ∧ rec.fragment.length ≤ 2 ^ 14) Within := by
    intro s hs
    have := readRecord_keeps m (fun b => b.buf.length < 2 ^ 24 + 4) s hs
    generalize (readRecord m).run s = r at this ⊢
    obtain ⟨r, s'⟩ := r
    cases r with
    | ok rec => exact this
    | err k => exact Short.within this
    | panic => exact Short.within this
    | diverge => exact Short.within this
  refine Post.bind h0 fun rec => ?_
  cases rec.contentType with
  | ChangeCipherSpecTy =>
    refine Post.bind (Post.lift (Q := fun msg s => Within s ∧ msg = .ChangeCipherSpecMessage) _ (fun a s h hs => ⟨hs.1.within, ?_⟩) fun s hs => hs.1.within) fun msg => Post.pure fun s hs => ⟨hs.1, fun h => (by cases h), fun d h => ?_⟩
    · unfold ccsMessage at h
      split at h
      · cases h
      · cases h; rfl
    · have := Option.some.inj h
      rw [hs.2] at this
      cases this
  | AlertTy =>
    refine Post.bind (Post.lift (Q := fun msg s => Within s ∧ ∃ a, msg = .AlertMessage a) _ (fun a s h hs => ⟨hs.1.within, ?_⟩) fun s hs => hs.1.within) fun msg => Post.pure fun s hs => ⟨hs.1, fun h => (by cases h), fun d h => ?_⟩
    · unfold alertMessage at h
      split at h
      · cases h
      · split at h
        · cases h
        · dsimp only at h
          split at h
          · obtain ⟨x, _, h2⟩ := Res.bind_eq_ok.mp h
            exact ⟨x, (Res.ok.inj h2).symm⟩
          · cases h
    · obtain ⟨a, ha⟩ := hs.2
      have := Option.some.inj h
      rw [ha] at this
      cases this
  | HandshakeTy =>
    dsimp only
    split
    · exact Post.err fun s hs => hs.1.within
    · refine Post.bind (Q := fun _ s => Within s) ?_ fun _ => Post.bind getMessage_within fun o => ?_
      · rintro s ⟨hs, hl⟩
        show (s.handshakeBuffer.buf ++ rec.fragment).length < 2 ^ 24 + 4 + 2 ^ 14
        unfold Short at hs
        rw [List.length_append]
        omega
      · cases o with
        | none => exact Post.pure fun s hs => ⟨hs.1, fun _ => hs.2 rfl, fun d h => by cases h⟩
        | some h => exact Post.pure fun s hs => ⟨hs.1, fun h => (by cases h), fun d h => by cases h⟩
  | ApplicationDataTy =>
    exact Post.pure fun s hs => ⟨hs.1.within, fun h => (by cases h), fun d h => by cases h; exact hs.2⟩

/-- What a message read leaves: the bound, and data of one record. -/
def MessageOk (msg : Message) (s : TlsReader) : Prop := Within s ∧ ∀ d, msg = .ApplicationDataMessage d → d.length ≤ 2 ^ 14

theorem messageLoop_within (m : Mode) (fuel : Nat) : Post Short (messageLoop m fuel) MessageOk Within := by
  induction fuel with
  | zero => exact Post.lift _ (fun a s h => by cases h) fun s hs => hs.within
  | succ fuel ih =>
    refine Post.bind (messageStep_within m) fun o => ?_
    cases o with
    | none => exact ih.weaken (fun s hs => hs.2.1 rfl) fun _ _ h => h
    | some msg => exact Post.pure fun s hs => ⟨hs.1, fun d h => hs.2.2 d (by rw [h])⟩

theorem readMessage_within (m : Mode) : Post Within (readMessage m) MessageOk Within := by
  refine Post.bind getMessage_within fun o => ?_
  cases o with
  | some h => exact Post.pure fun s hs => ⟨hs.1, fun d h => by cases h⟩
  | none =>
    exact Post.get_bind fun c => (messageLoop_within m _).weaken (fun s hs => hs.2 rfl) fun _ _ h => h

theorem readApplicationData_within (m : Mode) : Post Within (readApplicationData m) (fun d s => Within s ∧ d.length ≤ 2 ^ 14) Within := by
  refine Post.get_bind fun c => Post.ite (fun s hs => hs) ?_
  · refine Post.bind (readMessage_within m) fun msg => Post.lift _ (fun d t h ht => ⟨ht.1, ?_⟩) fun t ht => ht.1
    cases msg with
    | ApplicationDataMessage b => cases h; exact ht.2 _ rfl
    | AlertMessage a =>
      simp only [applicationData] at h
      split at h
      · cases h; simp
      · cases h
    | ChangeCipherSpecMessage => cases h
    | HandshakeMessage _ => cases h

theorem readHandshake_within (m : Mode) : Post Within (readHandshake m) (fun _ => Within) Within := by
  refine Post.bind (readMessage_within m) fun msg => ?_
  cases msg <;> first | exact Post.pure fun s hs => hs.1 | exact Post.err fun s hs => hs.1

theorem readChangeCipherSpec_within (m : Mode) : Post Within (readChangeCipherSpec m) (fun _ => Within) Within := by
  refine Post.bind (readMessage_within m) fun msg => ?_
  cases msg <;> first | exact Post.pure fun s hs => hs.1 | exact Post.err fun s hs => hs.1

/-- The bound on what the client holds. -/
def Bounded (c : TlsClient) : Prop := Within c.reader ∧ c.buf.length ≤ 2 ^ 14

/-- `x` keeps the bound. -/
def Keeps (x : St TlsClient α) : Prop := Post Bounded x (fun _ => Bounded) Bounded

namespace Keeps

theorem bind {x : St TlsClient α} {f : α → St TlsClient β} (hx : Keeps x) (hf : ∀ a, Keeps (f a)) : Keeps (x >>= f) := Post.bind hx hf
theorem lift (r : Res α) : Keeps (St.lift r) := Post.lift r (fun _ _ _ h => h) fun _ h => h
theorem pure (a : α) : Keeps (Pure.pure a) := Post.pure fun _ h => h

theorem onReader {x : St TlsReader α} (hx : Post Within x (fun _ => Within) Within) : Keeps (TlsClient.onReader x) := by
  rintro c ⟨h1, h2⟩
  have h := hx.any h1
  simp only [TlsClient.onReader, St.zoom_run]
  generalize x.run c.reader = r at h ⊢
  obtain ⟨r, s'⟩ := r
  cases r <;> exact ⟨h, h2⟩

theorem of_writer {x : St TlsClient α} (hx : WriterOnly x) : Keeps x := by
  obtain ⟨f, hf⟩ := hx
  intro c hc
  rw [hf]
  generalize f c.writer = r
  obtain ⟨r, w⟩ := r
  cases r <;> exact hc

theorem onWriter (x : St TlsWriter α) : Keeps (TlsClient.onWriter x) := of_writer (WriterOnly.onWriter x)

theorem onRng (x : St Rng α) : Keeps (TlsClient.onRng x) := by
  intro c hc
  simp only [TlsClient.onRng, St.zoom_run]
  generalize x.run c.rng = r
  obtain ⟨r, w⟩ := r
  cases r <;> exact hc

end Keeps

theorem sendHello_keeps (m : Mode) : Keeps (sendHello m) :=
  Keeps.bind (Keeps.onRng _) fun _ => Keeps.bind (Keeps.lift _) fun _ => Keeps.bind (Keeps.onWriter _) fun _ => Keeps.pure _

theorem expectServerHello_within (m : Mode) : Post Within (expectServerHello m) (fun _ => Within) Within :=
  Post.bind (readHandshake_within m) fun h => by cases h <;> first | exact Post.pure fun _ h => h | exact Post.err fun _ h => h
theorem expectCertificate_within (m : Mode) : Post Within (expectCertificate m) (fun _ => Within) Within :=
  Post.bind (readHandshake_within m) fun h => by cases h <;> first | exact Post.pure fun _ h => h | exact Post.err fun _ h => h
theorem expectServerKeyExchange_within (m : Mode) : Post Within (expectServerKeyExchange m) (fun _ => Within) Within :=
  Post.bind (readHandshake_within m) fun h => by cases h <;> first | exact Post.pure fun _ h => h | exact Post.err fun _ h => h
theorem expectServerHelloDone_within (m : Mode) : Post Within (expectServerHelloDone m) (fun _ => Within) Within :=
  Post.bind (readHandshake_within m) fun h => by cases h <;> first | exact Post.pure fun _ h => h | exact Post.err fun _ h => h
theorem expectFinished_within (m : Mode) : Post Within (expectFinished m) (fun _ => Within) Within :=
  Post.bind (readHandshake_within m) fun h => by cases h <;> first | exact Post.pure fun _ h => h | exact Post.err fun _ h => h

theorem readFlight_keeps (m : Mode) : Keeps (readFlight m) :=
  Keeps.bind (Keeps.onReader (expectServerHello_within m)) fun _ => Keeps.bind (Keeps.lift _) fun _ =>
  Keeps.bind (Keeps.onReader (expectCertificate_within m)) fun _ => Keeps.bind (Keeps.onReader (expectServerKeyExchange_within m)) fun _ =>
  Keeps.bind (Keeps.onRng _) fun _ => Keeps.bind (Keeps.onReader (expectServerHelloDone_within m)) fun _ => Keeps.pure _

theorem setIv_within (iv : Bytes) : Post Within (TlsReader.setIv iv) (fun _ => Within) Within := by
  intro s hs
  simp only [TlsReader.setIv]
  cases s.iv <;> exact hs

theorem setDecryptor_within (d : Decryptor) : Post Within (TlsReader.setDecryptor d) (fun _ => Within) Within := by
  intro s hs
  simp only [TlsReader.setDecryptor]
  cases s.decryptor <;> exact hs

theorem installKeys_keeps (m : Mode) (master cr sr : Bytes) : Keeps (installKeys m master cr sr) :=
  Keeps.bind (Keeps.lift _) fun _ => Keeps.bind (Keeps.lift _) fun _ => Keeps.bind (Keeps.onWriter _) fun _ => Keeps.bind (Keeps.lift _) fun _ =>
  Keeps.bind (Keeps.lift _) fun _ => Keeps.bind (Keeps.lift _) fun _ => Keeps.bind (Keeps.onWriter _) fun _ =>
  Keeps.bind (Keeps.onReader (setIv_within _)) fun _ => Keeps.pure _

theorem sendFinished_keeps (m : Mode) (cr : Bytes) (hello : Handshake) (f : ServerFlight) : Keeps (sendFinished m cr hello f) :=
  Keeps.bind (Keeps.lift _) fun _ => Keeps.bind (Keeps.onWriter _) fun _ => Keeps.bind (Keeps.onWriter _) fun _ => Keeps.bind (Keeps.lift _) fun _ =>
  Keeps.bind (installKeys_keeps m _ _ _) fun _ => Keeps.bind (Keeps.lift _) fun _ => Keeps.bind (Keeps.lift _) fun _ => Keeps.bind (Keeps.lift _) fun _ =>
  Keeps.bind (Keeps.onWriter _) fun _ => Keeps.pure _

theorem readFinished_keeps (m : Mode) (master rk msgs : Bytes) (fin : Handshake) : Keeps (readFinished m master rk msgs fin) :=
  Keeps.bind (Keeps.onReader (readChangeCipherSpec_within m)) fun _ => Keeps.bind (Keeps.onReader (setDecryptor_within _)) fun _ =>
  Keeps.bind (Keeps.onReader (expectFinished_within m)) fun _ => Keeps.lift _

theorem handshake_keeps (m : Mode) : Keeps (TlsClient.handshake m) :=
  Keeps.bind (sendHello_keeps m) fun _ => Keeps.bind (readFlight_keeps m) fun _ => Keeps.bind (sendFinished_keeps m _ _ _) fun _ => readFinished_keeps m _ _ _ _

theorem new_bounded (m : Mode) (rd : Reader) (wr : Writer) (rng : Rng) : Bounded (TlsClient.new m rd wr rng).2 := by
  have h0 : Bounded { reader := TlsReader.new rd, writer := TlsWriter.new wr, rng } := ⟨by show (0 : Nat) < _; omega, by show (0 : Nat) ≤ _; omega⟩
  have h := (handshake_keeps m).any h0
  simp only [TlsClient.new]
  generalize (TlsClient.handshake m).run _ = r at h ⊢
  obtain ⟨r, c⟩ := r
  cases r with
  | err k => exact Post.any (Keeps.bind (Keeps.of_writer (sendTlsAlert_only m k)) fun _ => Post.err fun _ h => h) h
  | ok _ => exact h
  | panic => exact h
  | diverge => exact h

theorem refill_keeps (m : Mode) : Keeps (refill m) := by
  rintro c ⟨h1, h2⟩
  simp only [refill]
  split
  · rename_i he
    have h := readApplicationData_within m c.reader h1
    simp only [TlsClient.onReader, St.zoom_run]
    generalize (readApplicationData m).run c.reader = r at h ⊢
    obtain ⟨r, s'⟩ := r
    cases r with
    | ok d =>
      refine ⟨h.1, ?_⟩
      show (c.buf ++ d).length ≤ 2 ^ 14
      rw [List.isEmpty_iff.mp he]
      exact h.2
    | err k => exact ⟨h, h2⟩
    | panic => exact ⟨h, h2⟩
    | diverge => exact ⟨h, h2⟩
  · exact ⟨h1, h2⟩

theorem readLoop_keeps (m : Mode) (fuel rem : Nat) (acc : Bytes) : Keeps (readLoop m fuel rem acc) := by
  induction fuel generalizing rem acc with
  | zero =>
    rw [readLoop.eq_def]
    exact Post.ite (Keeps.pure _) (Keeps.lift _)
  | succ fuel ih =>
    rw [readLoop.eq_def]
    refine Post.ite (Keeps.pure _) ?_
    · refine Keeps.bind (refill_keeps m) fun b => ?_
      cases b with
      | false => exact Keeps.pure _
      | true =>
        refine Post.get_bind fun c => Keeps.bind (x := St.modify _) ?_ fun _ => ih _ _
        rintro d ⟨h1, h2⟩
        exact ⟨h1, by show (d.buf.drop _).length ≤ _; rw [List.length_drop]; omega⟩

theorem read_keeps (m : Mode) (len : Nat) : Keeps (TlsClient.read m len) := by
  exact Post.get_bind fun c => readLoop_keeps m _ _ _

theorem Call.run_bounded (m : Mode) (call : Call) {c : TlsClient} (h : Bounded c) : Bounded (call.run m c).2 := by
  cases call with
  | read len => exact Post.any (read_keeps m len) h
  | write buf => exact Post.any (Keeps.of_writer (write_only m buf)) h
  | flush => exact h
  | close => exact Post.any (Keeps.onWriter (TlsWriter.writeAlert m { level := .fatal, description := .close_notify })) h

theorem runCalls_bounded (m : Mode) (calls : List Call) {c : TlsClient} (h : Bounded c) : Bounded (runCalls m calls c).2 := by
  induction calls generalizing c with
  | nil => exact h
  | cons call calls ih => exact ih (call.run_bounded m h)

/-! ### C73 -/

/-- C73: after the handshake, successful or not, and any calls on the connection, whatever arrived and however it was cut into records: the bytes of handshake messages
held are fewer than those of the largest handshake message and a record together, and at most one record of application data is held. -/
theorem C73_bounded (m : Mode) (rd : Reader) (wr : Writer) (rng : Rng) (calls : List Call) :
    (runCalls m calls (TlsClient.new m rd wr rng).2).2.reader.handshakeBuffer.buf.length < 2 ^ 24 + 4 + 2 ^ 14 ∧
      (runCalls m calls (TlsClient.new m rd wr rng).2).2.buf.length ≤ 2 ^ 14 := runCalls_bounded m calls (new_bounded m rd wr rng)

end Husk
