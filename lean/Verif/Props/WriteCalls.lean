import Verif.Model.Sock
import Verif.Props.Whole
/-! C111: how the transport takes the bytes, call of `write` by call of `write`, does not matter; and what it refuses is what C110 speaks of. -/

namespace Husk

open Item Spec TlsReader
open TlsClient (clientHello checkServerHello masterSecret verifyData transcript checkFinished expectServerHello expectCertificate expectServerKeyExchange
  expectServerHelloDone expectFinished keyExpansionLabel clientFinishedLabel ServerFlight)

/-! ### Specification -/

/-- What becomes of a buffer of `l` bytes: `none` if all of it is taken, `some k` if the transport gives up after `k` bytes; and the answers that are left. A short write is
followed by another one for the rest, `Interrupted` by another one for the same. -/
def fault : List WriteEv → Nat → Option Nat × List WriteEv
  | es, 0 => (none, es)
  | [], _ => (none, [])
  | .take 0 :: es, _ => (some 0, es)
  | .take n :: es, l => ((fault es (l - n)).1.map (n + ·), (fault es (l - n)).2)
  | .fail true :: es, l => fault es l
  | .fail false :: es, _ => (some 0, es)

/-- What becomes of the buffers of a list. -/
def faultsOf : List WriteEv → List Bytes → List (Option Nat)
  | _, [] => []
  | es, b :: bs => (fault es b.length).1 :: faultsOf (fault es b.length).2 bs

/-- The answers that are left after the buffers. -/
def answersAfter : List WriteEv → List Bytes → List WriteEv
  | es, [] => es
  | es, b :: bs => answersAfter (fault es b.length).2 bs

/-- What is taken of the buffers. -/
def taken : List Bytes → List (Option Nat) → Bytes
  | [], _ => []
  | b :: bs, none :: fs => b ++ taken bs fs
  | b :: bs, some k :: fs => b.take k ++ taken bs fs
  | b :: bs, [] => b ++ taken bs []

/-- The transport is slow, but takes everything in the end: short writes of at least one byte, and `Interrupted`. -/
def Willing (es : List WriteEv) : Prop := ∀ e ∈ es, e = .fail true ∨ ∃ n, 0 < n ∧ e = .take n

/-- A call of the API over this transport. -/
def Call.runSock (m : Mode) (c : SockClient) : Call → CallResult × SockClient
  | .read len => let r := (SockClient.read m len).run c; (.read r.1, r.2)
  | .write buf => let r := (SockClient.write m buf).run c; (.write r.1, r.2)
  | .flush => let r := SockClient.flush.run c; (.done r.1, r.2)
  | .close => let r := (SockClient.close m).run c; (.done r.1, r.2)

/-- `runSession` over this transport. -/
def runSessionSock (m : Mode) : List Call → SockClient → List CallResult × SockClient
  | [], c => ([], c)
  | call :: calls, c =>
    match call.runSock m c with
    | (.read .panic, c) => ([.read .panic], c)
    | (.write .panic, c) => ([.write .panic], c)
    | (.done .panic, c) => ([.done .panic], c)
    | (r, c) => (r :: (runSessionSock m calls c).1, (runSessionSock m calls c).2)

/-- `runProgram` over this transport. -/
def runProgramSock (m : Mode) (rd : Reader) (wr : SockWriter) (rng : Rng) (calls : List Call) : Res Unit × List CallResult × SockClient :=
  match SockClient.new m rd wr rng with
  | (.ok (), c) => (.ok (), runSessionSock m calls c)
  | (x, c) => (x, [], c)

/-! ### Proof: lists of buffers -/

theorem faultsOf_append (es : List WriteEv) (a b : List Bytes) : faultsOf es (a ++ b) = faultsOf es a ++ faultsOf (answersAfter es a) b := by
  induction a generalizing es with
  | nil => rfl
  | cons x a ih => simp only [List.cons_append, faultsOf, answersAfter, ih]

theorem answersAfter_append (es : List WriteEv) (a b : List Bytes) : answersAfter es (a ++ b) = answersAfter (answersAfter es a) b := by
  induction a generalizing es with
  | nil => rfl
  | cons x a ih => simp only [List.cons_append, answersAfter, ih]

theorem taken_append (es : List WriteEv) (a b : List Bytes) (fs : List (Option Nat)) : taken (a ++ b) (faultsOf es a ++ fs) = taken a (faultsOf es a) ++ taken b fs := by
  induction a generalizing es with
  | nil => rfl
  | cons x a ih =>
    simp only [List.cons_append, faultsOf]
    rcases (fault es x.length).1 with _ | k <;> simp only [taken, ih, List.append_assoc]

/-! ### Proof: `write_all` -/

theorem writeAllLoop_eq (es : List WriteEv) (fuel : Nat) (b wire : Bytes) (hf : es.length < fuel) :
    (SockWriter.writeAllLoop fuel b).run ⟨wire, es⟩ = match fault es b.length with
      | (none, es') => (.ok (), ⟨wire ++ b, es'⟩)
      | (some k, es') => (.err .IoFailure, ⟨wire ++ b.take k, es'⟩) := by
  induction es generalizing fuel b wire with
  | nil =>
    cases b with
    | nil => unfold SockWriter.writeAllLoop; simp [fault, St.pure_run]
    | cons x b =>
      cases fuel with
      | zero => simp at hf
      | succ fuel =>
        unfold SockWriter.writeAllLoop
        have h0 : (SockWriter.writeAllLoop fuel []).run ⟨wire ++ x :: b, []⟩ = (.ok (), ⟨wire ++ x :: b, []⟩) := by unfold SockWriter.writeAllLoop; rfl
        simp [SockWriter.write, St.bind_run, fault, h0]
  | cons e es ih =>
    cases b with
    | nil => unfold SockWriter.writeAllLoop; simp [fault, St.pure_run]
    | cons x b =>
      cases fuel with
      | zero => simp at hf
      | succ fuel =>
        have hf' : es.length < fuel := by simpa using hf
        unfold SockWriter.writeAllLoop
        rcases e with n | i
        · cases n with
          | zero => simp [SockWriter.write, St.bind_run, fault, St.err_run]
          | succ n =>
            have := ih fuel ((x :: b).drop (min (n + 1) (x :: b).length)) (wire ++ (x :: b).take (n + 1)) hf'
            simp only [SockWriter.write, St.bind_run, reduceCtorEq, if_false, List.length_cons, show min (n + 1) (b.length + 1) ≠ 0 by omega] at this ⊢
            rw [this]
            have hl : ((x :: b).drop (min (n + 1) (b.length + 1))).length = b.length + 1 - (n + 1) := by simp; omega
            rw [hl]
            simp only [fault]
            have hd : (x :: b).take (n + 1) ++ (x :: b).drop (min (n + 1) (b.length + 1)) = x :: b := by
              rcases Nat.le_total (n + 1) (b.length + 1) with h | h
              · rw [Nat.min_eq_left h, List.take_append_drop]
              · rw [Nat.min_eq_right h, List.take_of_length_le (by simpa using h), List.drop_of_length_le (by simp), List.append_nil]
            rcases hfa : fault es (b.length + 1 - (n + 1)) with ⟨o, es'⟩
            cases o with
            | none => simp only [Option.map_none, List.append_assoc, hd]
            | some k =>
              simp only [Option.map_some, List.append_assoc]
              have : (x :: b).take (n + 1) ++ ((x :: b).drop (min (n + 1) (b.length + 1))).take k = (x :: b).take (n + 1 + k) := by
                rcases Nat.le_total (n + 1) (b.length + 1) with h | h
                · rw [Nat.min_eq_left h, ← List.take_add]
                · rw [Nat.min_eq_right h, List.take_of_length_le (by simpa using h), List.drop_of_length_le (by simp), List.take_of_length_le (i := n + 1 + k) (by simp; omega)]
                  simp
              rw [this]
        · cases i with
          | false => simp [SockWriter.write, St.bind_run, fault, St.err_run]
          | true =>
            have := ih fuel (x :: b) wire hf'
            simp only [SockWriter.write, St.bind_run, reduceCtorEq, if_false] at this ⊢
            rw [this]
            simp only [List.length_cons, fault]

theorem sockWriteAll_eq (w : SockWriter) (b : Bytes) : (SockWriter.writeAll b).run w = match fault w.script b.length with
    | (none, es') => (.ok (), ⟨w.wire ++ b, es'⟩)
    | (some k, es') => (.err .IoFailure, ⟨w.wire ++ b.take k, es'⟩) := writeAllLoop_eq w.script _ b w.wire (Nat.lt_succ_self _)

/-! ### Proof: the two clients run alike -/

/-- How a state over this transport is one of the model, given what becomes of the coming buffers. -/
structure View (σ τ : Type) where
  abs : σ → List (Option Nat) → τ
  sock : σ → SockWriter

/-- From this state the two calls do the same: the one over this transport passes on some buffers; the other one is told what becomes of them. -/
def View.SimAt (V : View σ τ) (x : St σ α) (y : St τ α) (s : σ) : Prop :=
  ∃ bufs : List Bytes, (∀ b ∈ bufs, b ≠ []) ∧ (V.sock (x.run s).2).script = answersAfter (V.sock s).script bufs ∧
    (V.sock (x.run s).2).wire = (V.sock s).wire ++ taken bufs (faultsOf (V.sock s).script bufs) ∧
    ∀ rest, y.run (V.abs s (faultsOf (V.sock s).script bufs ++ rest)) = ((x.run s).1, V.abs (x.run s).2 rest)

/-- From every state. -/
def View.Sim (V : View σ τ) (x : St σ α) (y : St τ α) : Prop := ∀ s, V.SimAt x y s

theorem View.SimAt.of_local {V : View σ τ} {x : St σ α} {y : St τ α} {s : σ} (h1 : V.sock (x.run s).2 = V.sock s) (h2 : ∀ fs, y.run (V.abs s fs) = ((x.run s).1, V.abs (x.run s).2 fs)) :
    V.SimAt x y s :=
  ⟨[], by simp, by rw [h1]; rfl, by rw [h1]; simp [taken], fun rest => h2 rest⟩

theorem View.Sim.lift (V : View σ τ) (r : Res α) : V.Sim (St.lift r) (St.lift r) := fun _ => .of_local rfl fun _ => rfl

theorem View.Sim.pure (V : View σ τ) (a : α) : V.Sim (Pure.pure a) (Pure.pure a) := fun _ => .of_local rfl fun _ => rfl

theorem View.SimAt.bind {V : View σ τ} {x : St σ α} {y : St τ α} {f : α → St σ β} {g : α → St τ β} {s : σ} (h : V.SimAt x y s)
    (hf : ∀ a s', x.run s = (.ok a, s') → V.SimAt (f a) (g a) s') : V.SimAt (x >>= f) (y >>= g) s := by
  obtain ⟨b1, h1, h2, h3, h4⟩ := h
  rcases hx : x.run s with ⟨r, s'⟩
  rw [hx] at h2 h3 h4
  cases r with
  | ok a =>
    obtain ⟨b2, g1, g2, g3, g4⟩ := hf a s' hx
    refine ⟨b1 ++ b2, ?_, ?_, ?_, fun rest => ?_⟩
    · intro b hb
      rcases List.mem_append.mp hb with hb | hb
      · exact h1 b hb
      · exact g1 b hb
    · rw [St.bind_of_ok hx, g2, answersAfter_append, h2]
    · rw [St.bind_of_ok hx, g3, h3, faultsOf_append, taken_append, ← h2, List.append_assoc]
    · rw [St.bind_of_ok hx, faultsOf_append, List.append_assoc, St.bind_of_ok (h4 _), ← h2]
      exact g4 rest
  | err k => exact ⟨b1, h1, by rw [St.bind_of_err hx]; exact h2, by rw [St.bind_of_err hx]; exact h3, fun rest => by rw [St.bind_of_err hx, St.bind_of_err (h4 rest)]⟩
  | panic => exact ⟨b1, h1, by rw [St.bind_of_panic hx]; exact h2, by rw [St.bind_of_panic hx]; exact h3, fun rest => by rw [St.bind_of_panic hx, St.bind_of_panic (h4 rest)]⟩
  | diverge => exact ⟨b1, h1, by rw [St.bind_of_diverge hx]; exact h2, by rw [St.bind_of_diverge hx]; exact h3, fun rest => by rw [St.bind_of_diverge hx, St.bind_of_diverge (h4 rest)]⟩

theorem View.Sim.bind {V : View σ τ} {x : St σ α} {y : St τ α} {f : α → St σ β} {g : α → St τ β} (h : V.Sim x y) (hf : ∀ a, V.Sim (f a) (g a)) : V.Sim (x >>= f) (y >>= g) :=
  fun s => (h s).bind fun a s' _ => hf a s'

theorem View.SimAt.get_bind {V : View σ τ} {f : σ → St σ β} {g : τ → St τ β} {g' : St τ β} {s : σ} (h : ∀ fs, g (V.abs s fs) = g') (hf : V.SimAt (f s) g' s) :
    V.SimAt (St.get >>= f) (St.get >>= g) s := by
  obtain ⟨b, h1, h2, h3, h4⟩ := hf
  refine ⟨b, h1, h2, h3, fun rest => ?_⟩
  rw [St.bind_of_ok (St.get_run _), St.bind_of_ok (St.get_run _), h]
  exact h4 rest

theorem View.Sim.ite {V : View σ τ} {x x' : St σ α} {y y' : St τ α} (p : Prop) [Decidable p] (h : V.Sim x y) (h' : V.Sim x' y') : V.Sim (if p then x else x') (if p then y else y') := by
  split
  · exact h
  · exact h'

/-- The transport itself. -/
def sockView : View SockWriter Writer := ⟨fun w fs => ⟨w.wire, fs⟩, id⟩
/-- The record layer. -/
def writerView : View SockTlsWriter TlsWriter :=
  ⟨fun s fs => { writer := ⟨s.writer.wire, fs⟩, encryptor := s.encryptor, writeCount := s.writeCount, iv := s.iv, calls := s.calls }, (·.writer)⟩
/-- The client. -/
def clientView : View SockClient TlsClient := ⟨fun c fs => { reader := c.reader, writer := writerView.abs c.writer fs, rng := c.rng, buf := c.buf }, (·.writer.writer)⟩

theorem sim_writeAll (b : Bytes) : sockView.Sim (SockWriter.writeAll b) (Writer.writeAll b) := by
  intro w
  by_cases hb : b = []
  · subst hb
    refine .of_local ?_ fun fs => ?_
    · rw [sockWriteAll_eq]
      rcases w with ⟨wire, es⟩
      cases es <;> simp [fault, sockView]
    · rw [sockWriteAll_eq]
      rcases w with ⟨wire, es⟩
      cases es <;> simp [fault, sockView, Writer.writeAll]
  · refine ⟨[b], by simpa using hb, ?_, ?_, fun rest => ?_⟩ <;> rw [sockWriteAll_eq] <;> simp only [sockView, id, answersAfter, faultsOf, List.cons_append, List.nil_append] <;>
      rcases hfa : fault w.script b.length with ⟨o, es'⟩ <;> cases o <;> simp [taken, Writer.writeAll, hb]

theorem sim_io {x : St SockWriter α} {y : St Writer α} (h : sockView.Sim x y) : writerView.Sim (SockTlsWriter.io x) (TlsWriter.io y) := by
  intro s
  obtain ⟨b, h1, h2, h3, h4⟩ := h s.writer
  refine ⟨b, h1, h2, h3, fun rest => ?_⟩
  have := h4 rest
  simp only [TlsWriter.io, SockTlsWriter.io, St.zoom_run, writerView, sockView, id] at this ⊢
  rw [this]

theorem sim_onWriter {x : St SockTlsWriter α} {y : St TlsWriter α} (h : writerView.Sim x y) : clientView.Sim (SockClient.onWriter x) (TlsClient.onWriter y) := by
  intro s
  obtain ⟨b, h1, h2, h3, h4⟩ := h s.writer
  refine ⟨b, h1, h2, h3, fun rest => ?_⟩
  have := h4 rest
  simp only [TlsClient.onWriter, SockClient.onWriter, St.zoom_run, clientView] at this ⊢
  rw [show (writerView.sock s.writer).script = s.writer.writer.script from rfl] at this
  rw [this]

theorem sim_onReader (x : St TlsReader α) : clientView.Sim (SockClient.onReader x) (TlsClient.onReader x) := fun _ => .of_local rfl fun _ => rfl
theorem sim_onRng (x : St Rng α) : clientView.Sim (SockClient.onRng x) (TlsClient.onRng x) := fun _ => .of_local rfl fun _ => rfl

/-! ### Proof: the record layer -/

theorem sim_setEncryptor (e : Encryptor) : writerView.Sim (SockTlsWriter.setEncryptor e) (TlsWriter.setEncryptor e) := by
  rintro ⟨w, e', n, iv, cs⟩
  cases e' <;> exact .of_local rfl fun _ => rfl

theorem sim_setIv (iv : Bytes) : writerView.Sim (SockTlsWriter.setIv iv) (TlsWriter.setIv iv) := by
  rintro ⟨w, e, n, iv', cs⟩
  cases iv' <;> exact .of_local rfl fun _ => rfl

theorem sim_protect (r : Record) : writerView.Sim (SockTlsWriter.protect r) (TlsWriter.protect r) := by
  rintro ⟨w, e, n, iv, cs⟩
  rcases e with _ | e
  · exact .of_local rfl fun _ => rfl
  · refine .of_local ?_ fun fs => ?_
    · simp only [SockTlsWriter.protect, writerView]
      split <;> rfl
    · have hn : TlsWriter.nonce { writer := ⟨w.wire, fs⟩, encryptor := some e, writeCount := n, iv := iv, calls := cs } =
        SockTlsWriter.nonce { writer := w, encryptor := some e, writeCount := n, iv := iv, calls := cs } := rfl
      have ha : TlsWriter.ad { writer := ⟨w.wire, fs⟩, encryptor := some e, writeCount := n, iv := iv, calls := cs } r =
        SockTlsWriter.ad { writer := w, encryptor := some e, writeCount := n, iv := iv, calls := cs } r := rfl
      simp only [SockTlsWriter.protect, TlsWriter.protect, writerView, hn, ha]
      cases e.encrypt (SockTlsWriter.nonce { writer := w, encryptor := some e, writeCount := n, iv := iv, calls := cs }) r.fragment
        (SockTlsWriter.ad { writer := w, encryptor := some e, writeCount := n, iv := iv, calls := cs } r) <;> rfl

theorem sim_bump (m : Mode) : writerView.Sim (SockTlsWriter.bump m) (TlsWriter.bump m) := by
  rintro ⟨w, e, n, iv, cs⟩
  refine .of_local ?_ fun fs => ?_ <;> simp only [SockTlsWriter.bump, TlsWriter.bump, writerView] <;> cases addU64 m n 1 <;> rfl

theorem sim_writeRecord (m : Mode) (r : Record) : writerView.Sim (SockTlsWriter.writeRecord m r) (TlsWriter.writeRecord m r) :=
  (sim_protect r).bind fun _ => .ite _ (.lift _ _) ((sim_io (sim_writeAll _)).bind fun _ => (sim_io (sim_writeAll _)).bind fun _ => (sim_io (sim_writeAll _)).bind fun _ =>
    (sim_io (sim_writeAll _)).bind fun _ => (sim_io (sim_writeAll _)).bind fun _ => sim_bump m)

theorem sim_writeChunks (m : Mode) (ty : ContentType) : ∀ cs, writerView.Sim (SockTlsWriter.writeChunks m ty cs) (TlsWriter.writeChunks m ty cs)
  | [] => .pure _ _
  | _ :: cs => (View.Sim.lift _ _).bind fun r => (sim_writeRecord m r).bind fun _ => sim_writeChunks m ty cs

theorem sim_writeData (m : Mode) (ty : ContentType) (data : Bytes) : writerView.Sim (SockTlsWriter.writeData m ty data) (TlsWriter.writeData m ty data) := sim_writeChunks m ty _

theorem sim_writeHandshake (m : Mode) (h : Handshake) : writerView.Sim (SockTlsWriter.writeHandshake m h) (TlsWriter.writeHandshake m h) :=
  (View.Sim.lift _ _).bind fun _ => sim_writeData m _ _

theorem sim_writeAlert (m : Mode) (a : Alert) : writerView.Sim (SockTlsWriter.writeAlert m a) (TlsWriter.writeAlert m a) := (View.Sim.lift _ _).bind fun _ => sim_writeData m _ _

theorem sim_writeApplicationData (m : Mode) (data : Bytes) : writerView.Sim (SockTlsWriter.writeApplicationData m data) (TlsWriter.writeApplicationData m data) := by
  intro s
  exact .get_bind (g' := if s.encryptor.isNone then St.panic else TlsWriter.writeData m .ApplicationDataTy data) (fun _ => rfl) (View.Sim.ite _ (.lift _ _) (sim_writeData m _ _) s)

/-! ### Proof: the client -/

theorem sim_installKeys (m : Mode) (a b c : Bytes) : clientView.Sim (SockClient.installKeys m a b c) (TlsClient.installKeys m a b c) :=
  (View.Sim.lift _ _).bind fun _ => (View.Sim.lift _ _).bind fun _ => (sim_onWriter (sim_setEncryptor _)).bind fun _ => (View.Sim.lift _ _).bind fun _ => (View.Sim.lift _ _).bind fun _ =>
    (View.Sim.lift _ _).bind fun _ => (sim_onWriter (sim_setIv _)).bind fun _ => (sim_onReader _).bind fun _ => .pure _ _

theorem sim_sendHello (m : Mode) : clientView.Sim (SockClient.sendHello m) (TlsClient.sendHello m) :=
  (sim_onRng _).bind fun _ => (View.Sim.lift _ _).bind fun _ => (sim_onWriter (sim_writeHandshake m _)).bind fun _ => .pure _ _

theorem sim_readFlight (m : Mode) : clientView.Sim (SockClient.readFlight m) (TlsClient.readFlight m) :=
  (sim_onReader _).bind fun _ => (View.Sim.lift _ _).bind fun _ => (sim_onReader _).bind fun _ => (sim_onReader _).bind fun _ => (sim_onRng _).bind fun _ => (sim_onReader _).bind fun _ => .pure _ _

theorem sim_sendFinished (m : Mode) (r : Bytes) (h : Handshake) (f : ServerFlight) : clientView.Sim (SockClient.sendFinished m r h f) (TlsClient.sendFinished m r h f) :=
  (View.Sim.lift _ _).bind fun _ => (sim_onWriter (sim_writeHandshake m _)).bind fun _ => (sim_onWriter (sim_writeData m _ _)).bind fun _ => (View.Sim.lift _ _).bind fun _ =>
    (sim_installKeys m _ _ _).bind fun _ => (View.Sim.lift _ _).bind fun _ => (View.Sim.lift _ _).bind fun _ => (View.Sim.lift _ _).bind fun _ =>
    (sim_onWriter (sim_writeHandshake m _)).bind fun _ => .pure _ _

theorem sim_readFinished (m : Mode) (a b c : Bytes) (h : Handshake) : clientView.Sim (SockClient.readFinished m a b c h) (TlsClient.readFinished m a b c h) :=
  (sim_onReader _).bind fun _ => (sim_onReader _).bind fun _ => (sim_onReader _).bind fun _ => .lift _ _

theorem sim_handshake (m : Mode) : clientView.Sim (SockClient.handshake m) (TlsClient.handshake m) :=
  (sim_sendHello m).bind fun _ => (sim_readFlight m).bind fun _ => (sim_sendFinished m _ _ _).bind fun _ => sim_readFinished m _ _ _ _

theorem sim_sendTlsAlert (m : Mode) (k : TlsErrorKind) : clientView.Sim (SockClient.sendTlsAlert m k) (TlsClient.sendTlsAlert m k) := by
  intro s
  by_cases hk : k = .IoFailure
  · subst hk
    exact .of_local rfl fun _ => rfl
  · obtain ⟨b, h1, h2, h3, h4⟩ := sim_onWriter (sim_writeAlert m (Alert.fromTlsErr k)) s
    rcases hx : (SockClient.onWriter (SockTlsWriter.writeAlert m (Alert.fromTlsErr k))).run s with ⟨r, s'⟩
    rw [hx] at h2 h3 h4
    have e1 : (SockClient.sendTlsAlert m k).run s = match r with | .ok () => (.ok k, s') | .err k' => (.ok k', s') | .panic => (.panic, s') | .diverge => (.diverge, s') := by
      cases k <;> first | exact absurd rfl hk | (simp only [SockClient.sendTlsAlert, hx]; cases r <;> rfl)
    refine ⟨b, h1, ?_, ?_, fun rest => ?_⟩
    · rw [e1]; cases r <;> exact h2
    · rw [e1]; cases r <;> exact h3
    · rw [e1]
      cases k <;> first | exact absurd rfl hk | (simp only [TlsClient.sendTlsAlert, h4 rest]; cases r <;> rfl)

/-- An error is answered with an alert. -/
theorem View.SimAt.alert {m : Mode} {x : St SockClient Unit} {y : St TlsClient Unit} {s : SockClient} (h : clientView.SimAt x y s) : clientView.SimAt
    ⟨fun c => match x.run c with | (.err k, c) => (SockClient.sendTlsAlert m k >>= fun k' => St.err k').run c | (r, c) => (r, c)⟩
    ⟨fun c => match y.run c with | (.err k, c) => (TlsClient.sendTlsAlert m k >>= fun k' => St.err k').run c | (r, c) => (r, c)⟩ s := by
  obtain ⟨b1, h1, h2, h3, h4⟩ := h
  rcases hx : x.run s with ⟨r, s'⟩
  rw [hx] at h2 h3 h4
  cases r with
  | err k =>
    obtain ⟨b2, g1, g2, g3, g4⟩ := (sim_sendTlsAlert m k).bind (fun k' => View.Sim.lift (α := Unit) clientView (.err k')) s'
    refine ⟨b1 ++ b2, ?_, ?_, ?_, fun rest => ?_⟩
    · intro b hb
      rcases List.mem_append.mp hb with hb | hb
      · exact h1 b hb
      · exact g1 b hb
    · simp only [hx]; rw [answersAfter_append, ← h2]; exact g2
    · simp only [hx]; rw [faultsOf_append, taken_append, ← h2, ← List.append_assoc, ← h3]; exact g3
    · simp only [hx]; rw [faultsOf_append, List.append_assoc, h4, ← h2]; exact g4 rest
  | ok a => exact ⟨b1, h1, by simp only [hx]; exact h2, by simp only [hx]; exact h3, fun rest => by simp only [hx]; rw [h4]⟩
  | panic => exact ⟨b1, h1, by simp only [hx]; exact h2, by simp only [hx]; exact h3, fun rest => by simp only [hx]; rw [h4]⟩
  | diverge => exact ⟨b1, h1, by simp only [hx]; exact h2, by simp only [hx]; exact h3, fun rest => by simp only [hx]; rw [h4]⟩

theorem sim_clientWriteAll (m : Mode) (buf : Bytes) : clientView.Sim (SockClient.writeAll m buf) (TlsClient.writeAll m buf) :=
  fun s => (sim_onWriter (sim_writeApplicationData m buf) s).alert

theorem sim_write (m : Mode) (buf : Bytes) : clientView.Sim (SockClient.write m buf) (TlsClient.write m buf) := (sim_clientWriteAll m buf).bind fun _ => .pure _ _

theorem sim_close (m : Mode) : clientView.Sim (SockClient.close m) (TlsClient.close m) := sim_onWriter (sim_writeAlert m _)

theorem sim_refill (m : Mode) : clientView.Sim (SockClient.refill m) (TlsClient.refill m) := by
  intro s
  by_cases hb : s.buf.isEmpty = true
  · rcases hx : (TlsReader.readApplicationData m).run s.reader with ⟨r, t⟩
    have e1 : (SockClient.onReader (TlsReader.readApplicationData m)).run s = (r, { s with reader := t }) := by simp only [SockClient.onReader, St.zoom_run, hx]
    have e2 : ∀ fs, (TlsClient.onReader (TlsReader.readApplicationData m)).run (clientView.abs s fs) = (r, clientView.abs { s with reader := t } fs) := by
      intro fs
      simp only [TlsClient.onReader, St.zoom_run, clientView, hx]
    refine .of_local ?_ fun fs => ?_
    · simp only [SockClient.refill, hb, if_true, e1]
      cases r <;> rfl
    · have hb' : (clientView.abs s fs).buf.isEmpty = true := hb
      simp only [SockClient.refill, TlsClient.refill, hb, hb', if_true, e1, e2]
      cases r <;> rfl
  · refine .of_local ?_ fun fs => ?_
    · simp only [SockClient.refill, hb]
      rfl
    · have hb' : ¬ (clientView.abs s fs).buf.isEmpty = true := hb
      simp only [SockClient.refill, TlsClient.refill, hb, hb']
      rfl

theorem sim_readLoop (m : Mode) (fuel : Nat) : ∀ (remaining : Nat) (acc : Bytes), clientView.Sim (SockClient.readLoop m fuel remaining acc) (TlsClient.readLoop m fuel remaining acc) := by
  induction fuel with
  | zero =>
    intro remaining acc
    unfold SockClient.readLoop TlsClient.readLoop
    exact .ite _ (.pure _ _) (.lift _ _)
  | succ fuel ih =>
    intro remaining acc
    unfold SockClient.readLoop TlsClient.readLoop
    refine .ite _ (.pure _ _) ((sim_refill m).bind fun b => .ite _ ?_ (.pure _ _))
    intro s
    refine .get_bind (g' := do
      St.modify fun c => { c with buf := c.buf.drop (min remaining s.buf.length) }
      TlsClient.readLoop m fuel (remaining - min remaining s.buf.length) (acc ++ s.buf.take (min remaining s.buf.length))) (fun fs => rfl) ?_
    exact View.SimAt.bind (.of_local rfl fun _ => rfl) fun _ s' _ => ih _ _ s'

theorem sim_read (m : Mode) (len : Nat) : clientView.Sim (SockClient.read m len) (TlsClient.read m len) := by
  intro s
  exact .get_bind (g' := TlsClient.readLoop m (len + s.reader.reader.bytes + 1) len []) (fun _ => rfl) (sim_readLoop m _ _ _ s)

/-! ### Proof: programs -/

/-- `SimAt` for anything that is done with a client. -/
def Alike {ρ : Type} (f : SockClient → ρ × SockClient) (g : TlsClient → ρ × TlsClient) (s : SockClient) : Prop :=
  ∃ bufs : List Bytes, (∀ b ∈ bufs, b ≠ []) ∧ (f s).2.writer.writer.script = answersAfter s.writer.writer.script bufs ∧
    (f s).2.writer.writer.wire = s.writer.writer.wire ++ taken bufs (faultsOf s.writer.writer.script bufs) ∧
    ∀ rest, g (clientView.abs s (faultsOf s.writer.writer.script bufs ++ rest)) = ((f s).1, clientView.abs (f s).2 rest)

theorem Alike.of_sim {x : St SockClient α} {y : St TlsClient α} {s : SockClient} (h : clientView.SimAt x y s) (w : Res α → ρ) :
    Alike (fun s => (w (x.run s).1, (x.run s).2)) (fun s => (w (y.run s).1, (y.run s).2)) s := by
  obtain ⟨b, h1, h2, h3, h4⟩ := h
  refine ⟨b, h1, h2, h3, fun rest => ?_⟩
  have := h4 rest
  rw [show (clientView.sock s).script = s.writer.writer.script from rfl] at this
  simp only [this]

theorem alike_call (m : Mode) (call : Call) (s : SockClient) : Alike (fun s => call.runSock m s) (fun s => call.run m s) s := by
  cases call with
  | read len => exact .of_sim (sim_read m len s) CallResult.read
  | write buf => exact .of_sim (sim_write m buf s) CallResult.write
  | flush => exact .of_sim (View.Sim.pure clientView () s) CallResult.done
  | close => exact .of_sim (sim_close m s) CallResult.done

open Classical in
theorem runSessionSock_cons (m : Mode) (call : Call) (calls : List Call) (c : SockClient) (r : CallResult) (c' : SockClient) (h : call.runSock m c = (r, c')) :
    runSessionSock m (call :: calls) c = if r = .read .panic ∨ r = .write .panic ∨ r = .done .panic then ([r], c') else (r :: (runSessionSock m calls c').1, (runSessionSock m calls c').2) := by
  conv_lhs => unfold runSessionSock
  rw [h]
  rcases r with r | r | r <;> cases r <;> simp

open Classical in
theorem runSession_cons (m : Mode) (call : Call) (calls : List Call) (c : TlsClient) (r : CallResult) (c' : TlsClient) (h : call.run m c = (r, c')) :
    runSession m (call :: calls) c = if r = .read .panic ∨ r = .write .panic ∨ r = .done .panic then ([r], c') else (r :: (runSession m calls c').1, (runSession m calls c').2) := by
  conv_lhs => unfold runSession
  rw [h]
  rcases r with r | r | r <;> cases r <;> simp

open Classical in
theorem alike_session (m : Mode) (calls : List Call) (s : SockClient) : Alike (runSessionSock m calls) (runSession m calls) s := by
  induction calls generalizing s with
  | nil => exact ⟨[], by simp, rfl, by simp [taken, runSessionSock], fun _ => rfl⟩
  | cons call calls ih =>
    obtain ⟨b1, h1, h2, h3, h4⟩ := alike_call m call s
    rcases hx : call.runSock m s with ⟨r, s'⟩
    simp only [hx] at h2 h3 h4
    by_cases hp : r = .read .panic ∨ r = .write .panic ∨ r = .done .panic
    · refine ⟨b1, h1, ?_, ?_, fun rest => ?_⟩
      · rw [runSessionSock_cons m call calls s r s' hx, if_pos hp]; exact h2
      · rw [runSessionSock_cons m call calls s r s' hx, if_pos hp]; exact h3
      · rw [runSessionSock_cons m call calls s r s' hx, runSession_cons m call calls _ r _ (h4 rest), if_pos hp, if_pos hp]
    · obtain ⟨b2, g1, g2, g3, g4⟩ := ih s'
      refine ⟨b1 ++ b2, ?_, ?_, ?_, fun rest => ?_⟩
      · intro b hb
        rcases List.mem_append.mp hb with hb | hb
        · exact h1 b hb
        · exact g1 b hb
      · rw [runSessionSock_cons m call calls s r s' hx, if_neg hp, answersAfter_append, ← h2]; exact g2
      · rw [runSessionSock_cons m call calls s r s' hx, if_neg hp, faultsOf_append, taken_append, ← h2, ← List.append_assoc, ← h3]; exact g3
      · rw [faultsOf_append, List.append_assoc, runSessionSock_cons m call calls s r s' hx, runSession_cons m call calls _ r _ (h4 _), if_neg hp, if_neg hp, ← h2, g4 rest]

/-- The client before the handshake. -/
def sockFresh (rd : Reader) (wr : SockWriter) (rng : Rng) : SockClient := { reader := TlsReader.new rd, writer := SockTlsWriter.new wr, rng }

theorem alike_new (m : Mode) (rd : Reader) (wr : SockWriter) (rng : Rng) : ∃ bufs : List Bytes, (∀ b ∈ bufs, b ≠ []) ∧
    (SockClient.new m rd wr rng).2.writer.writer.script = answersAfter wr.script bufs ∧
    (SockClient.new m rd wr rng).2.writer.writer.wire = wr.wire ++ taken bufs (faultsOf wr.script bufs) ∧
    ∀ rest, TlsClient.new m rd ⟨wr.wire, faultsOf wr.script bufs ++ rest⟩ rng = ((SockClient.new m rd wr rng).1, clientView.abs (SockClient.new m rd wr rng).2 rest) := by
  obtain ⟨b, h1, h2, h3, h4⟩ := (sim_handshake m (sockFresh rd wr rng)).alert (m := m)
  exact ⟨b, h1, h2, h3, fun rest => h4 rest⟩

theorem program_sim (m : Mode) (rd : Reader) (wr : SockWriter) (rng : Rng) (calls : List Call) : ∃ bufs : List Bytes, (∀ b ∈ bufs, b ≠ []) ∧
    (runProgramSock m rd wr rng calls).2.2.writer.writer.script = answersAfter wr.script bufs ∧
    (runProgramSock m rd wr rng calls).2.2.writer.writer.wire = wr.wire ++ taken bufs (faultsOf wr.script bufs) ∧
    ∀ rest, runProgram m rd ⟨wr.wire, faultsOf wr.script bufs ++ rest⟩ rng calls =
      ((runProgramSock m rd wr rng calls).1, (runProgramSock m rd wr rng calls).2.1, clientView.abs (runProgramSock m rd wr rng calls).2.2 rest) := by
  obtain ⟨b1, h1, h2, h3, h4⟩ := alike_new m rd wr rng
  rcases hx : SockClient.new m rd wr rng with ⟨r, s'⟩
  rw [hx] at h2 h3 h4
  simp only at h2 h3 h4
  cases r with
  | ok a =>
    obtain ⟨b2, g1, g2, g3, g4⟩ := alike_session m calls s'
    have e : runProgramSock m rd wr rng calls = (.ok (), runSessionSock m calls s') := by unfold runProgramSock; rw [hx]
    refine ⟨b1 ++ b2, ?_, ?_, ?_, fun rest => ?_⟩
    · intro b hb
      rcases List.mem_append.mp hb with hb | hb
      · exact h1 b hb
      · exact g1 b hb
    · rw [e, answersAfter_append, ← h2]; exact g2
    · rw [e, faultsOf_append, taken_append, ← h2, ← List.append_assoc, ← h3]; exact g3
    · rw [e, faultsOf_append, List.append_assoc]
      unfold runProgram
      rw [h4, ← h2]
      simp only [g4 rest]
  | err k =>
    have e : runProgramSock m rd wr rng calls = (.err k, [], s') := by unfold runProgramSock; rw [hx]
    exact ⟨b1, h1, by rw [e]; exact h2, by rw [e]; exact h3, fun rest => by rw [e]; unfold runProgram; rw [h4]⟩
  | panic =>
    have e : runProgramSock m rd wr rng calls = (.panic, [], s') := by unfold runProgramSock; rw [hx]
    exact ⟨b1, h1, by rw [e]; exact h2, by rw [e]; exact h3, fun rest => by rw [e]; unfold runProgram; rw [h4]⟩
  | diverge =>
    have e : runProgramSock m rd wr rng calls = (.diverge, [], s') := by unfold runProgramSock; rw [hx]
    exact ⟨b1, h1, by rw [e]; exact h2, by rw [e]; exact h3, fun rest => by rw [e]; unfold runProgram; rw [h4]⟩

/-! ### Proof: slow transports -/

theorem Willing.fault {es : List WriteEv} (h : Willing es) (l : Nat) : (fault es l).1 = none ∧ Willing (Husk.fault es l).2 := by
  induction es generalizing l with
  | nil => cases l <;> exact ⟨rfl, h⟩
  | cons e es ih =>
    have hes : Willing es := fun x hx => h x (List.mem_cons_of_mem _ hx)
    cases l with
    | zero => exact ⟨rfl, h⟩
    | succ l =>
      rcases h e List.mem_cons_self with rfl | ⟨n, hn, rfl⟩
      · exact ih hes _
      · cases n with
        | zero => omega
        | succ n =>
          simp only [Husk.fault]
          exact ⟨by rw [(ih hes _).1]; rfl, (ih hes _).2⟩

theorem Willing.faults {es : List WriteEv} (h : Willing es) (bufs : List Bytes) : faultsOf es bufs = List.replicate bufs.length none := by
  induction bufs generalizing es with
  | nil => rfl
  | cons b bs ih => rw [faultsOf, (h.fault _).1, ih (h.fault _).2]; rfl

/-! ### C111 -/

/-- C111: a buffer is taken as a whole, or the transport gives up on it: then what it took before was short writes with any number of interruptions between them, and the answer that ended
it was `Ok(0)` or an error other than `Interrupted`. -/
theorem C111_write_all (w : SockWriter) (b : Bytes) : ∃ es1 es2, w.script = es1 ++ es2 ∧
    (((SockWriter.writeAll b).run w = (.ok (), ⟨w.wire ++ b, es2⟩) ∧ Willing es1) ∨
      ∃ es k e, es1 = es ++ [e] ∧ (e = .take 0 ∨ e = .fail false) ∧ Willing es ∧ k = (es.map fun | .take n => n | .fail _ => 0).sum ∧ k < b.length ∧
        (SockWriter.writeAll b).run w = (.err .IoFailure, ⟨w.wire ++ b.take k, es2⟩)) := by
  have key : ∀ (es : List WriteEv) (l : Nat), ∃ es1 es2, es = es1 ++ es2 ∧ ((fault es l = (none, es2) ∧ Willing es1) ∨
      ∃ es' k e, es1 = es' ++ [e] ∧ (e = .take 0 ∨ e = .fail false) ∧ Willing es' ∧ k = (es'.map fun | .take n => n | .fail _ => 0).sum ∧ k < l ∧ fault es l = (some k, es2)) := by
    intro es
    induction es with
    | nil => exact fun l => ⟨[], [], rfl, .inl ⟨by cases l <;> rfl, by intro e he; cases he⟩⟩
    | cons x es ih =>
      intro l
      cases l with
      | zero => exact ⟨[], x :: es, rfl, .inl ⟨rfl, by intro e he; cases he⟩⟩
      | succ l =>
        have done : fault (x :: es) (l + 1) = (some 0, es) → (x = .take 0 ∨ x = .fail false) → ∃ es1 es2, x :: es = es1 ++ es2 ∧ ((fault (x :: es) (l + 1) = (none, es2) ∧ Willing es1) ∨
            ∃ es' k e, es1 = es' ++ [e] ∧ (e = .take 0 ∨ e = .fail false) ∧ Willing es' ∧ k = (es'.map fun | .take n => n | .fail _ => 0).sum ∧ k < l + 1 ∧ fault (x :: es) (l + 1) = (some k, es2)) :=
          fun h hx => ⟨[x], es, rfl, .inr ⟨[], 0, x, rfl, hx, (by intro e he; cases he), rfl, by omega, h⟩⟩
        rcases x with n | i
        · cases n with
          | zero => exact done rfl (.inl rfl)
          | succ n =>
            have hw : ∀ {es' : List WriteEv}, Willing es' → Willing (.take (n + 1) :: es') := by
              intro es' h e he
              rcases List.mem_cons.mp he with rfl | he
              · exact .inr ⟨n + 1, by omega, rfl⟩
              · exact h e he
            obtain ⟨es1, es2, h1, h2⟩ := ih (l + 1 - (n + 1))
            refine ⟨.take (n + 1) :: es1, es2, by rw [h1]; rfl, ?_⟩
            rcases h2 with ⟨h2, h3⟩ | ⟨es', k, e, h2, h3, h4, h5, h6, h7⟩
            · exact .inl ⟨by simp only [fault, h2]; rfl, hw h3⟩
            · exact .inr ⟨.take (n + 1) :: es', n + 1 + k, e, by rw [h2]; rfl, h3, hw h4, by simp [← h5], by omega, by simp only [fault, h7]; rfl⟩
        · cases i with
          | false => exact done rfl (.inr rfl)
          | true =>
            have hw : ∀ {es' : List WriteEv}, Willing es' → Willing (.fail true :: es') := by
              intro es' h e he
              rcases List.mem_cons.mp he with rfl | he
              · exact .inl rfl
              · exact h e he
            obtain ⟨es1, es2, h1, h2⟩ := ih (l + 1)
            refine ⟨.fail true :: es1, es2, by rw [h1]; rfl, ?_⟩
            rcases h2 with ⟨h2, h3⟩ | ⟨es', k, e, h2, h3, h4, h5, h6, h7⟩
            · exact .inl ⟨h2, hw h3⟩
            · exact .inr ⟨.fail true :: es', k, e, by rw [h2]; rfl, h3, hw h4, by simp [← h5], h6, h7⟩
  obtain ⟨es1, es2, h1, h2⟩ := key w.script b.length
  refine ⟨es1, es2, h1, ?_⟩
  rw [sockWriteAll_eq]
  rcases h2 with ⟨h2, h3⟩ | ⟨es, k, e, h2, h3, h4, h5, h6, h7⟩
  · exact .inl ⟨by rw [h2], h3⟩
  · exact .inr ⟨es, k, e, h2, h3, h4, h5, h6, by rw [h7]⟩

/-- C111: a program over this transport returns and sends what it does over a transport that takes or refuses whole buffers, namely those this one takes or gives up on; so everything
that is proved of all of those holds here. -/
theorem C111_refines (m : Mode) (rd : Reader) (wr : SockWriter) (rng : Rng) (calls : List Call) : ∃ bufs : List Bytes, (∀ b ∈ bufs, b ≠ []) ∧
    (runProgram m rd ⟨wr.wire, faultsOf wr.script bufs⟩ rng calls).1 = (runProgramSock m rd wr rng calls).1 ∧
    (runProgram m rd ⟨wr.wire, faultsOf wr.script bufs⟩ rng calls).2.1 = (runProgramSock m rd wr rng calls).2.1 ∧
    (runProgram m rd ⟨wr.wire, faultsOf wr.script bufs⟩ rng calls).2.2.writer.writer.wire = (runProgramSock m rd wr rng calls).2.2.writer.writer.wire ∧
    (runProgram m rd ⟨wr.wire, faultsOf wr.script bufs⟩ rng calls).2.2.reader = (runProgramSock m rd wr rng calls).2.2.reader ∧
    (runProgramSock m rd wr rng calls).2.2.writer.writer = ⟨wr.wire ++ taken bufs (faultsOf wr.script bufs), answersAfter wr.script bufs⟩ := by
  obtain ⟨b, h1, h2, h3, h4⟩ := program_sim m rd wr rng calls
  have := h4 []
  rw [List.append_nil] at this
  refine ⟨b, h1, by rw [this], by rw [this], by rw [this]; rfl, by rw [this]; rfl, ?_⟩
  rw [← h2, ← h3]

/-- C111: whatever the transport takes at a time and however often it is interrupted, as long as it takes everything in the end the program returns the same and sends the same. -/
theorem C111_slow (m : Mode) (rd : Reader) (wire : Bytes) (es es' : List WriteEv) (hes : Willing es) (hes' : Willing es') (rng : Rng) (calls : List Call) :
    (runProgramSock m rd ⟨wire, es⟩ rng calls).1 = (runProgramSock m rd ⟨wire, es'⟩ rng calls).1 ∧
    (runProgramSock m rd ⟨wire, es⟩ rng calls).2.1 = (runProgramSock m rd ⟨wire, es'⟩ rng calls).2.1 ∧
    (runProgramSock m rd ⟨wire, es⟩ rng calls).2.2.writer.writer.wire = (runProgramSock m rd ⟨wire, es'⟩ rng calls).2.2.writer.writer.wire := by
  obtain ⟨b, -, -, -, h4⟩ := program_sim m rd ⟨wire, es⟩ rng calls
  obtain ⟨b', -, -, -, h4'⟩ := program_sim m rd ⟨wire, es'⟩ rng calls
  have g := h4 (List.replicate b'.length none)
  have g' := h4' (List.replicate b.length none)
  simp only [hes.faults, hes'.faults, List.replicate_append_replicate] at g g'
  rw [Nat.add_comm, g] at g'
  have e1 := congrArg Prod.fst g'
  have e2 := congrArg (fun x => x.2.1) g'
  have e3 := congrArg (fun x => x.2.2.writer.writer.wire) g'
  exact ⟨e1, e2, e3⟩

/-- C111 with C110: over this transport, too, a program does exactly one thing, and `Plays` says what, given what becomes of the buffers. -/
theorem C111_program (m : Mode) (rd : Reader) (wr : SockWriter) (cr rest : Bytes) (calls : List Call) (hcr : cr.length = 32) (hn : countBytes rd.stream + 1 < 2 ^ 64)
    (hcalls : (calls.flatMap Call.records).length + 1 < 2 ^ 64) : ∃ bufs : List Bytes, (∀ b ∈ bufs, b ≠ []) ∧
    Plays m rd cr rest (faultsOf wr.script bufs) calls (runProgramSock m rd wr ⟨cr ++ rest⟩ calls).1 (runProgramSock m rd wr ⟨cr ++ rest⟩ calls).2.1
      (taken bufs (faultsOf wr.script bufs)) ∧
    (runProgramSock m rd wr ⟨cr ++ rest⟩ calls).2.2.writer.writer.wire = wr.wire ++ taken bufs (faultsOf wr.script bufs) := by
  obtain ⟨b, h1, h2, h3, h4, -, h5⟩ := C111_refines m rd wr ⟨cr ++ rest⟩ calls
  rw [h5] at h4
  refine ⟨b, h1, ?_, by rw [h5]⟩
  exact (C110_program m rd ⟨wr.wire, faultsOf wr.script b⟩ cr rest calls _ _ _ hcr hn hcalls).mp ⟨h2, h3, h4⟩

/-! ### Cases -/

/-- Two bytes at a time, with an interruption. -/
example : (SockWriter.writeAll [1, 2, 3, 4, 5]).run ⟨[9], [.take 2, .fail true, .take 2, .take 7, .take 1]⟩ = (.ok (), ⟨[9, 1, 2, 3, 4, 5], [.take 1]⟩) := by decide
/-- `Ok(0)` in the middle. -/
example : (SockWriter.writeAll [1, 2, 3]).run ⟨[9], [.take 2, .take 0, .take 1]⟩ = (.err .IoFailure, ⟨[9, 1, 2], [.take 1]⟩) := by decide
/-- A transport that takes a byte at a time is willing. -/
example (n : Nat) : Willing (List.replicate n (.take 1)) := fun e he => .inr ⟨1, by omega, List.eq_of_mem_replicate he⟩
end Husk
