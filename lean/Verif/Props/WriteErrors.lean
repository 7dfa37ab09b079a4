import Verif.Props.CutHandshake
import Verif.Props.WriteCalls
/-! C125: errors on the writing side during the handshake. -/

namespace Husk

open Item Spec TlsReader TlsClient

/-! ### Proofs: calls on an object whose transport takes everything -/

variable {E : Prop}

/-- The same has been written to both, and the second takes everything; the first, too, if `E`. -/
def Writer.Unhindered (E : Prop) (w w' : Writer) : Prop := w.wire = w'.wire ∧ w'.faults = [] ∧ (E → ∀ f ∈ w.faults, f = none)

theorem Writer.writeAll_unhindered (b : Bytes) : Ahead E (Writer.Unhindered E) (·.wire) (Writer.writeAll b) := by
  rintro ⟨wire, fs⟩ ⟨_, _⟩ ⟨h1, h2, h3⟩
  dsimp only at h1 h2 h3
  subst h1 h2
  simp only [Writer.writeAll]
  by_cases hb : b = []
  · simp only [if_pos hb]
    exact Or.inr ⟨trivial, rfl, rfl, h3⟩
  · simp only [if_neg hb]
    match fs with
    | [] => exact Or.inr ⟨rfl, rfl, rfl, h3⟩
    | none :: fs => exact Or.inr ⟨rfl, rfl, rfl, fun e f hf => h3 e f (List.mem_cons_of_mem _ hf)⟩
    | some k :: fs => exact Or.inl ⟨Or.inl rfl, (List.prefix_append_right_inj _).mpr (List.take_prefix k b), fun e => nomatch h3 e _ List.mem_cons_self⟩

namespace TlsWriter

/-- The same but for the transport. -/
def Unhindered (E : Prop) (s t : TlsWriter) : Prop := Writer.Unhindered E s.writer t.writer ∧ s.encryptor = t.encryptor ∧ s.iv = t.iv ∧ s.writeCount = t.writeCount ∧ s.calls = t.calls

theorem io_unhindered {x : St Writer α} (hx : Ahead E (Writer.Unhindered E) (·.wire) x) : Ahead E (Unhindered E) sentBytes (io x) := by
  intro s t h
  rcases hx _ _ h.1 with ⟨h1, h2, h3⟩ | ⟨h1, h2⟩
  · exact Or.inl ⟨h1, h2, h3⟩
  · exact Or.inr ⟨h1, h2, h.2⟩

theorem protect_unhindered (r : Record) : Respects (Unhindered E) (protect r) := by
  rintro ⟨w, e, n, i, c⟩ ⟨w', e', n', i', c'⟩ ⟨h1, h2, h3, h4, h5⟩
  dsimp only at h2 h3 h4 h5
  subst h2 h3 h4 h5
  simp only [protect]
  cases e with
  | none => exact ⟨rfl, h1, rfl, rfl, rfl, rfl⟩
  | some e =>
    dsimp only [nonce, ad]
    split <;> exact ⟨rfl, h1, rfl, rfl, rfl, rfl⟩

theorem bump_unhindered (m : Mode) : Respects (Unhindered E) (bump m) := by
  rintro ⟨w, e, n, i, c⟩ ⟨w', e', n', i', c'⟩ ⟨h1, h2, h3, h4, h5⟩
  dsimp only at h2 h3 h4 h5
  subst h2 h3 h4 h5
  simp only [bump]
  split <;> exact ⟨rfl, h1, rfl, rfl, rfl, rfl⟩

theorem setEncryptor_unhindered (e : Encryptor) : Respects (Unhindered E) (setEncryptor e) := by
  rintro ⟨w, e, n, i, c⟩ ⟨w', e', n', i', c'⟩ ⟨h1, h2, h3, h4, h5⟩
  dsimp only at h2 h3 h4 h5
  subst h2 h3 h4 h5
  simp only [setEncryptor]
  split <;> exact ⟨rfl, h1, rfl, rfl, rfl, rfl⟩

theorem setIv_unhindered (iv : Bytes) : Respects (Unhindered E) (setIv iv) := by
  rintro ⟨w, e, n, i, c⟩ ⟨w', e', n', i', c'⟩ ⟨h1, h2, h3, h4, h5⟩
  dsimp only at h2 h3 h4 h5
  subst h2 h3 h4 h5
  simp only [setIv]
  split <;> exact ⟨rfl, h1, rfl, rfl, rfl, rfl⟩

theorem ioAll_unhindered (b : Bytes) : Ahead E (Unhindered E) sentBytes (io (Writer.writeAll b)) := io_unhindered (Writer.writeAll_unhindered b)

theorem writeRecord_unhindered (m : Mode) (r : Record) : Ahead E (Unhindered E) sentBytes (writeRecord m r) := by
  have w := fun b => io_grows (writeAll_grows b)
  refine .bind (.same (protect_unhindered r)) (fun _ => .ite (.lift .panic) <| .bind (ioAll_unhindered _) (fun _ => .bind (ioAll_unhindered _) (fun _ =>
    .bind (ioAll_unhindered _) (fun _ => .bind (ioAll_unhindered _) (fun _ => .bind (ioAll_unhindered _) (fun _ => .same (bump_unhindered m))
    fun _ => bump_grows m)
    fun _ => .bind (w _) fun _ => bump_grows m)
    fun _ => .bind (w _) fun _ => .bind (w _) fun _ => bump_grows m)
    fun _ => .bind (w _) fun _ => .bind (w _) fun _ => .bind (w _) fun _ => bump_grows m)
    fun _ => .bind (w _) fun _ => .bind (w _) fun _ => .bind (w _) fun _ => .bind (w _) fun _ => bump_grows m)
    fun _ => .ite .panic <| .bind (w _) fun _ => .bind (w _) fun _ => .bind (w _) fun _ => .bind (w _) fun _ => .bind (w _) fun _ => bump_grows m

theorem writeChunks_unhindered (m : Mode) (ty : ContentType) : ∀ cs, Ahead E (Unhindered E) sentBytes (writeChunks m ty cs)
  | [] => .pure _
  | _ :: cs => .bind (.lift _) (fun _ => .bind (writeRecord_unhindered m _) (fun _ => writeChunks_unhindered m ty cs) fun _ => writeChunks_grows m ty cs)
    fun _ => .bind (writeRecord_grows m _) fun _ => writeChunks_grows m ty cs

theorem writeData_unhindered (m : Mode) (ty : ContentType) (data : Bytes) : Ahead E (Unhindered E) sentBytes (writeData m ty data) := writeChunks_unhindered m ty _

theorem writeHandshake_unhindered (m : Mode) (h : Handshake) : Ahead E (Unhindered E) sentBytes (writeHandshake m h) :=
  .bind (.lift _) (fun _ => writeData_unhindered m _ _) fun _ => writeData_grows m _ _

theorem writeAlert_unhindered (m : Mode) (a : Alert) : Ahead E (Unhindered E) sentBytes (writeAlert m a) :=
  .bind (.lift _) (fun _ => writeData_unhindered m _ _) fun _ => writeData_grows m _ _

end TlsWriter

namespace TlsClient

/-- The same but for the transport's writing side. -/
def Unhindered (E : Prop) (c d : TlsClient) : Prop := TlsWriter.Unhindered E c.writer d.writer ∧ c.reader = d.reader ∧ c.rng = d.rng ∧ c.buf = d.buf

theorem onWriter_unhindered {x : St TlsWriter α} (hx : Ahead E (TlsWriter.Unhindered E) TlsWriter.sentBytes x) : Ahead E (Unhindered E) sentBytes (onWriter x) := by
  intro s t h
  rcases hx _ _ h.1 with ⟨h1, h2, h3⟩ | ⟨h1, h2⟩
  · exact Or.inl ⟨h1, h2, h3⟩
  · exact Or.inr ⟨h1, h2, h.2⟩

theorem onReader_unhindered (x : St TlsReader α) : Ahead E (Unhindered E) sentBytes (onReader x) := by
  intro c d h
  obtain ⟨a, b, e, f⟩ := h
  simp only [onReader, St.zoom_run]
  rw [b]
  exact Or.inr ⟨rfl, a, rfl, e, f⟩

theorem onRng_unhindered (x : St Rng α) : Ahead E (Unhindered E) sentBytes (onRng x) := by
  intro c d h
  obtain ⟨a, b, e, f⟩ := h
  simp only [onRng, St.zoom_run]
  rw [e]
  exact Or.inr ⟨rfl, a, b, rfl, f⟩

theorem writeHandshake_unhindered (m : Mode) (h : Handshake) : Ahead E (Unhindered E) sentBytes (onWriter (TlsWriter.writeHandshake m h)) :=
  onWriter_unhindered (TlsWriter.writeHandshake_unhindered m h)

theorem sendHello_unhindered (m : Mode) : Ahead E (Unhindered E) sentBytes (sendHello m) :=
  .bind (onRng_unhindered _) (fun _ => .bind (.lift _) (fun _ => .bind (writeHandshake_unhindered m _) (fun _ => .pure _) fun _ => .pure _)
    fun _ => .bind (writeHandshake_grows m _) fun _ => .pure _)
    fun _ => .bind (.lift _) fun _ => .bind (writeHandshake_grows m _) fun _ => .pure _

theorem readFlight_unhindered (m : Mode) : Ahead E (Unhindered E) sentBytes (readFlight m) :=
  .bind (onReader_unhindered _) (fun _ => .bind (.lift _) (fun _ => .bind (onReader_unhindered _) (fun _ =>
    .bind (onReader_unhindered _) (fun _ => .bind (onRng_unhindered _) (fun _ => .bind (onReader_unhindered _) (fun _ => .pure _) fun _ => .pure _)
      fun _ => .bind (onReader_grows _) fun _ => .pure _)
      fun _ => .bind (onRng_grows _) fun _ => .bind (onReader_grows _) fun _ => .pure _)
      fun _ => .bind (onReader_grows _) fun _ => .bind (onRng_grows _) fun _ => .bind (onReader_grows _) fun _ => .pure _)
      fun _ => .bind (onReader_grows _) fun _ => .bind (onReader_grows _) fun _ => .bind (onRng_grows _) fun _ => .bind (onReader_grows _) fun _ => .pure _)
      fun _ => .bind (.lift _) fun _ => .bind (onReader_grows _) fun _ => .bind (onReader_grows _) fun _ => .bind (onRng_grows _) fun _ => .bind (onReader_grows _) fun _ => .pure _

theorem installKeys_unhindered (m : Mode) (a b c : Bytes) : Ahead E (Unhindered E) sentBytes (installKeys m a b c) := by
  have h1 : ∀ e, Ahead E (Unhindered E) sentBytes (onWriter (TlsWriter.setEncryptor e)) := fun e => onWriter_unhindered (.same (TlsWriter.setEncryptor_unhindered e))
  have h2 : ∀ iv, Ahead E (Unhindered E) sentBytes (onWriter (TlsWriter.setIv iv)) := fun iv => onWriter_unhindered (.same (TlsWriter.setIv_unhindered iv))
  have g2 : ∀ iv, Grows sentBytes (onWriter (TlsWriter.setIv iv)) := fun iv => onWriter_grows (TlsWriter.setIv_grows iv)
  exact .bind (.lift _) (fun _ => .bind (.lift _) (fun _ => .bind (h1 _) (fun _ => .bind (.lift _) (fun _ => .bind (.lift _) (fun _ => .bind (.lift _) (fun _ =>
    .bind (h2 _) (fun _ => .bind (onReader_unhindered _) (fun _ => .pure _) fun _ => .pure _)
    fun _ => .bind (onReader_grows _) fun _ => .pure _)
    fun _ => .bind (g2 _) fun _ => .bind (onReader_grows _) fun _ => .pure _)
    fun _ => .bind (.lift _) fun _ => .bind (g2 _) fun _ => .bind (onReader_grows _) fun _ => .pure _)
    fun _ => .bind (.lift _) fun _ => .bind (.lift _) fun _ => .bind (g2 _) fun _ => .bind (onReader_grows _) fun _ => .pure _)
    fun _ => .bind (.lift _) fun _ => .bind (.lift _) fun _ => .bind (.lift _) fun _ => .bind (g2 _) fun _ => .bind (onReader_grows _) fun _ => .pure _)
    fun _ => .bind (onWriter_grows (TlsWriter.setEncryptor_grows _)) fun _ =>
      .bind (.lift _) fun _ => .bind (.lift _) fun _ => .bind (.lift _) fun _ => .bind (g2 _) fun _ => .bind (onReader_grows _) fun _ => .pure _)
    fun _ => .bind (.lift _) fun _ => .bind (onWriter_grows (TlsWriter.setEncryptor_grows _)) fun _ =>
      .bind (.lift _) fun _ => .bind (.lift _) fun _ => .bind (.lift _) fun _ => .bind (g2 _) fun _ => .bind (onReader_grows _) fun _ => .pure _

theorem sendFinished_unhindered (m : Mode) (cr : Bytes) (h : Handshake) (f : ServerFlight) : Ahead E (Unhindered E) sentBytes (sendFinished m cr h f) := by
  have g := fun h => writeHandshake_grows m h
  have gc : Grows sentBytes (onWriter (TlsWriter.writeChangeCipherSpec m)) := onWriter_grows (TlsWriter.writeData_grows m _ _)
  have hc : Ahead E (Unhindered E) sentBytes (onWriter (TlsWriter.writeChangeCipherSpec m)) := onWriter_unhindered (TlsWriter.writeData_unhindered m _ _)
  exact .bind (.lift _) (fun _ => .bind (writeHandshake_unhindered m _) (fun _ => .bind hc (fun _ => .bind (.lift _) (fun _ => .bind (installKeys_unhindered m _ _ _) (fun _ =>
    .bind (.lift _) (fun _ => .bind (.lift _) (fun _ => .bind (.lift _) (fun _ => .bind (writeHandshake_unhindered m _) (fun _ => .pure _) fun _ => .pure _)
    fun _ => .bind (g _) fun _ => .pure _)
    fun _ => .bind (.lift _) fun _ => .bind (g _) fun _ => .pure _)
    fun _ => .bind (.lift _) fun _ => .bind (.lift _) fun _ => .bind (g _) fun _ => .pure _)
    fun _ => .bind (.lift _) fun _ => .bind (.lift _) fun _ => .bind (.lift _) fun _ => .bind (g _) fun _ => .pure _)
    fun _ => .bind (installKeys_grows m _ _ _) fun _ => .bind (.lift _) fun _ => .bind (.lift _) fun _ => .bind (.lift _) fun _ => .bind (g _) fun _ => .pure _)
    fun _ => .bind (.lift _) fun _ => .bind (installKeys_grows m _ _ _) fun _ => .bind (.lift _) fun _ => .bind (.lift _) fun _ => .bind (.lift _) fun _ => .bind (g _) fun _ => .pure _)
    fun _ => .bind gc fun _ => .bind (.lift _) fun _ => .bind (installKeys_grows m _ _ _) fun _ => .bind (.lift _) fun _ => .bind (.lift _) fun _ => .bind (.lift _) fun _ => .bind (g _) fun _ => .pure _)
    fun _ => .bind (g _) fun _ => .bind gc fun _ => .bind (.lift _) fun _ => .bind (installKeys_grows m _ _ _) fun _ => .bind (.lift _) fun _ => .bind (.lift _) fun _ =>
      .bind (.lift _) fun _ => .bind (g _) fun _ => .pure _

theorem readFinished_unhindered (m : Mode) (a b c : Bytes) (h : Handshake) : Ahead E (Unhindered E) sentBytes (readFinished m a b c h) :=
  .bind (onReader_unhindered _) (fun _ => .bind (onReader_unhindered _) (fun _ => .bind (onReader_unhindered _) (fun _ => .lift _) fun _ => .lift _)
    fun _ => .bind (onReader_grows _) fun _ => .lift _)
    fun _ => .bind (onReader_grows _) fun _ => .bind (onReader_grows _) fun _ => .lift _

theorem handshake_unhindered (m : Mode) : Ahead E (Unhindered E) sentBytes (handshake m) :=
  .bind (sendHello_unhindered m) (fun _ => .bind (readFlight_unhindered m) (fun _ => .bind (sendFinished_unhindered m _ _ _) (fun _ => readFinished_unhindered m _ _ _ _)
    fun _ => readFinished_grows m _ _ _ _)
    fun _ => .bind (sendFinished_grows m _ _ _) fun _ => readFinished_grows m _ _ _ _)
    fun _ => .bind (readFlight_grows m) fun _ => .bind (sendFinished_grows m _ _ _) fun _ => readFinished_grows m _ _ _ _

theorem new_unhindered (m : Mode) (rd : Reader) {wr wr' : Writer} (h : Writer.Unhindered E wr wr') (rng : Rng) :
    (Stopped (TlsClient.new m rd wr rng).1 ∧ (TlsClient.new m rd wr rng).2.sentBytes <+: (TlsClient.new m rd wr' rng).2.sentBytes ∧
      (E → (TlsClient.new m rd wr rng).1 = .err .IoFailure → (TlsClient.new m rd wr' rng).1 = .err .IoFailure ∧
        (TlsClient.new m rd wr rng).2.sentBytes = (TlsClient.new m rd wr' rng).2.sentBytes)) ∨
    ((TlsClient.new m rd wr rng).1 = (TlsClient.new m rd wr' rng).1 ∧ Unhindered E (TlsClient.new m rd wr rng).2 (TlsClient.new m rd wr' rng).2) := by
  have hs : Unhindered E (fresh rd wr rng) (fresh rd wr' rng) := ⟨⟨h, rfl, rfl, rfl, rfl⟩, rfl, rfl, rfl⟩
  rw [new_run, new_run]
  have h1 := handshake_unhindered m _ _ hs
  rcases es : (handshake m).run (fresh rd wr rng) with ⟨r, c⟩
  rcases et : (handshake m).run (fresh rd wr' rng) with ⟨r', d⟩
  rw [es, et] at h1
  dsimp only at h1
  rcases h1 with ⟨h1, h2, h4⟩ | ⟨rfl, h2⟩
  · rcases h1 with rfl | rfl
    · refine Or.inl ⟨Or.inl rfl, ?_, fun e _ => ?_⟩
      · cases r' with
        | err k => exact h2.trans (Grows.bind (sendTlsAlert_grows m k) (fun _ => Grows.err _) d)
        | ok _ => exact h2
        | panic => exact h2
        | diverge => exact h2
      · obtain ⟨rfl, h5⟩ := h4 e rfl
        exact ⟨rfl, h5⟩
    · refine Or.inl ⟨Or.inr rfl, ?_, fun _ e => nomatch e⟩
      cases r' with
      | err k => exact h2.trans (Grows.bind (sendTlsAlert_grows m k) (fun _ => Grows.err _) d)
      | ok _ => exact h2
      | panic => exact h2
      | diverge => exact h2
  · cases r with
    | err k =>
      have ha := onWriter_unhindered (TlsWriter.writeAlert_unhindered m (Alert.fromTlsErr k)) c d h2
      rcases e1 : (onWriter (TlsWriter.writeAlert m (Alert.fromTlsErr k))).run c with ⟨x, c1⟩
      rcases e2 : (onWriter (TlsWriter.writeAlert m (Alert.fromTlsErr k))).run d with ⟨y, d1⟩
      rw [e1, e2] at ha
      dsimp only at ha
      dsimp only
      rw [St.bind_run, St.bind_run]
      cases k <;> simp only [sendTlsAlert, e1, e2] <;> first
        | exact Or.inr ⟨rfl, h2⟩
        | (rcases ha with ⟨rfl | rfl, h3, h4⟩ | ⟨rfl, h3⟩
           · refine Or.inl ⟨Or.inl rfl, (by cases y <;> exact h3), fun e _ => ?_⟩
             obtain ⟨rfl, h5⟩ := h4 e rfl
             exact ⟨rfl, h5⟩
           · exact Or.inl ⟨Or.inr rfl, (by cases y <;> exact h3), fun _ e => nomatch e⟩
           · exact Or.inr (by cases x <;> exact ⟨rfl, h3⟩))
    | ok _ => exact Or.inr ⟨rfl, h2⟩
    | panic => exact Or.inr ⟨rfl, h2⟩
    | diverge => exact Or.inr ⟨rfl, h2⟩

end TlsClient

/-! ### C125 -/

/-- C125: whatever the server sends and whatever the transport does with the client's writes, `new` does what it does when they all succeed, or it returns an I/O error and
has sent the beginning of that. -/
theorem C125_new (m : Mode) (rd : Reader) (wire : Bytes) (faults : List (Option Nat)) (rng : Rng) {random block rest : Bytes} (D : Draws rng.bytes random block rest)
    (hn : countBytes rd.stream + 1 < 2 ^ 64) :
    ((TlsClient.new m rd ⟨wire, faults⟩ rng).1 = .err .IoFailure ∧
      (TlsClient.new m rd ⟨wire, faults⟩ rng).2.writer.writer.wire <+: (TlsClient.new m rd ⟨wire, []⟩ rng).2.writer.writer.wire) ∨
    ((TlsClient.new m rd ⟨wire, faults⟩ rng).1 = (TlsClient.new m rd ⟨wire, []⟩ rng).1 ∧
      (TlsClient.new m rd ⟨wire, faults⟩ rng).2.writer.writer.wire = (TlsClient.new m rd ⟨wire, []⟩ rng).2.writer.writer.wire) := by
  rcases new_unhindered m rd (⟨rfl, rfl, False.elim⟩ : Writer.Unhindered False ⟨wire, faults⟩ ⟨wire, []⟩) rng with ⟨h1, h2, -⟩ | ⟨h1, h2⟩
  · exact Or.inl ⟨h1.resolve_right (C61_no_hang m rd _ rng hn D), h2⟩
  · exact Or.inr ⟨h1, h2.1.1.1⟩

/-- C125 for a transport that takes the bytes of a write in pieces, is interrupted, refuses them or fails, in any way. -/
theorem C125_socket (m : Mode) (rd : Reader) (wr : SockWriter) (rng : Rng) {random block rest : Bytes} (D : Draws rng.bytes random block rest)
    (hn : countBytes rd.stream + 1 < 2 ^ 64) :
    ((SockClient.new m rd wr rng).1 = .err .IoFailure ∧ (SockClient.new m rd wr rng).2.writer.writer.wire <+: (TlsClient.new m rd ⟨wr.wire, []⟩ rng).2.writer.writer.wire) ∨
    ((SockClient.new m rd wr rng).1 = (TlsClient.new m rd ⟨wr.wire, []⟩ rng).1 ∧
      (SockClient.new m rd wr rng).2.writer.writer.wire = (TlsClient.new m rd ⟨wr.wire, []⟩ rng).2.writer.writer.wire) := by
  obtain ⟨b, -, -, -, h4⟩ := alike_new m rd wr rng
  have h := C125_new m rd wr.wire (faultsOf wr.script b ++ []) rng D hn
  rw [h4 []] at h
  exact h

/-- C125 with C124: when the connection to a conforming server ends before the last byte of its part of the handshake has come, `new` returns an I/O error whatever becomes of its
writes, and has sent the beginning of its part of the handshake. -/
theorem C125_cut (m : Mode) (rd : Reader) (wr : SockWriter) (rng : Rng) (random block rest : Bytes) (D : Draws rng.bytes random block rest)
    (V : ServerValues) (hV : V.Conforms) (S : Session) (hS : S = V.session random (clientPoint block)) (fs1 fs2 : List Bytes) (h1 : Cuts fs1 S.flight)
    (h2 : Cuts fs2 (finishedBytes S.serverVerify)) (p q : Bytes) (hpq : p ++ q = serverWire S fs1 fs2) (hq : q ≠ []) (e : List Sym) (he : Ended e)
    (hce : countBytes e < 2 ^ 63) (hrd : rd.stream = ofBytes p ++ e) :
    (SockClient.new m rd wr rng).1 = .err .IoFailure ∧
    (SockClient.new m rd wr rng).2.writer.writer.wire <+: wr.wire ++ (clientFlight random (Spec.P256.encode (clientPoint block)) S.keys S.clientVerify).flatten := by
  have hlen := serverWire_length D hV hS h1 h2
  have hn : countBytes rd.stream + 1 < 2 ^ 64 := by
    rw [hrd, countBytes_append, countBytes_ofBytes]
    rw [← hpq, List.length_append] at hlen
    omega
  obtain ⟨g1, g2⟩ := C124_cut m rd ⟨wr.wire, []⟩ rng rfl random block rest D V hV S hS fs1 fs2 h1 h2 p q hpq hq e he hrd
  rcases C125_socket m rd wr rng D hn with ⟨k1, k2⟩ | ⟨k1, k2⟩
  · exact ⟨k1, k2.trans g2⟩
  · exact ⟨k1.trans g1, by rw [k2]; exact g2⟩

/-- C125: a connection that is established has sent everything, however slowly the transport took it. -/
theorem C125_complete (m : Mode) (rd : Reader) (wr : SockWriter) (rng : Rng) {random block rest : Bytes} (D : Draws rng.bytes random block rest)
    (hn : countBytes rd.stream + 1 < 2 ^ 64) (h : (SockClient.new m rd wr rng).1 = .ok ()) :
    (TlsClient.new m rd ⟨wr.wire, []⟩ rng).1 = .ok () ∧ (SockClient.new m rd wr rng).2.writer.writer.wire = (TlsClient.new m rd ⟨wr.wire, []⟩ rng).2.writer.writer.wire := by
  rcases C125_socket m rd wr rng D hn with ⟨k1, -⟩ | ⟨k1, k2⟩
  · rw [h] at k1; cases k1
  · exact ⟨k1.symm.trans h, k2⟩

/-- C125: a transport that takes everything in the end, a few bytes at a time and with interruptions, makes no difference to one that takes whole buffers. -/
theorem C125_slow (m : Mode) (rd : Reader) (wr : SockWriter) (hw : Willing wr.script) (rng : Rng) {random block rest : Bytes} (D : Draws rng.bytes random block rest)
    (hn : countBytes rd.stream + 1 < 2 ^ 64) : (SockClient.new m rd wr rng).1 = (TlsClient.new m rd ⟨wr.wire, []⟩ rng).1 ∧
    (SockClient.new m rd wr rng).2.writer.writer.wire = (TlsClient.new m rd ⟨wr.wire, []⟩ rng).2.writer.writer.wire := by
  obtain ⟨b, -, -, -, h4⟩ := alike_new m rd wr rng
  have hf : Writer.Unhindered True ⟨wr.wire, faultsOf wr.script b ++ []⟩ ⟨wr.wire, []⟩ := by
    refine ⟨rfl, rfl, fun _ f hf => ?_⟩
    rw [List.append_nil, hw.faults] at hf
    exact List.eq_of_mem_replicate hf
  have h := new_unhindered m rd hf rng
  have hnd := C61_no_hang m rd ⟨wr.wire, faultsOf wr.script b ++ []⟩ rng hn D
  rw [h4 []] at h hnd
  rcases h with ⟨g1, -, g3⟩ | ⟨g1, g2⟩
  · have e := g1.resolve_right hnd
    obtain ⟨k1, k2⟩ := g3 trivial e
    exact ⟨e.trans k1.symm, k2⟩
  · exact ⟨g1, g2.1.1.1⟩

/-- Handshakes that succeed over a transport that takes one byte at a time: the hypotheses of `C125_complete` and `C125_slow`. -/
example (m : Mode) (random block : Bytes) (hr : random.length = 32) (hb : block.length = 32) (hlt : leNat block < P256.p) (V : ServerValues) (hV : V.Conforms) (n : Nat) :
    ∃ rd : Reader, Draws (random ++ block) random block [] ∧ countBytes rd.stream + 1 < 2 ^ 64 ∧ Willing (List.replicate n (.take 1)) ∧
      (SockClient.new m rd ⟨[], List.replicate n (.take 1)⟩ ⟨random ++ block⟩).1 = .ok () := by
  have D : Draws (random ++ block) random block [] := ⟨⟨[], by simp, by simp⟩, hr, hb, hlt⟩
  have hw : Willing (List.replicate n (.take 1)) := fun e he => .inr ⟨1, by omega, List.eq_of_mem_replicate he⟩
  obtain ⟨S, hS⟩ : ∃ S, S = V.session random (clientPoint block) := ⟨_, rfl⟩
  have h1 : Cuts (chunks 16384 S.flight) S.flight := cuts_exists _ (by have := flight_length hV hS; omega)
  have h2 : Cuts (chunks 16384 (finishedBytes S.serverVerify)) (finishedBytes S.serverVerify) := cuts_exists _ (by simp [finishedBytes, handshakeBytes, serverVerify_length D hV hS])
  have hl := serverWire_length D hV hS h1 h2
  have hn : countBytes (byteByByte (serverWire S (chunks 16384 S.flight) (chunks 16384 (finishedBytes S.serverVerify)))).stream + 1 < 2 ^ 64 := by
    rw [stream_byteByByte, countBytes_ofBytes]
    omega
  obtain ⟨c, k1, -⟩ := C29_completes_partial m (byteByByte (serverWire S (chunks 16384 S.flight) (chunks 16384 (finishedBytes S.serverVerify)))) {} ⟨random ++ block⟩ rfl random block [] D V hV S hS
    _ _ [] ⟨h1, h2, by rw [stream_byteByByte, List.append_nil]⟩
  refine ⟨_, D, hn, hw, ?_⟩
  rw [(C125_slow m _ ⟨[], List.replicate n (.take 1)⟩ hw ⟨random ++ block⟩ D hn).1]
  show (TlsClient.new m _ {} _).1 = _
  rw [k1]

end Husk
