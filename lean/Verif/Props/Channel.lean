import Verif.Proofs.Incoming
import Verif.Props.Codec
/-! C99: `TlsWriter` and `TlsReader` as a channel for messages, over any history of calls. -/

namespace Husk

open Spec TlsReader

/-- A call on a `TlsWriter` (src/tls.rs:102-191). `keys` stands for `set_encryptor` followed by `set_iv`. -/
inductive Sending where
  | handshake (h : Handshake)
  | alert (a : Alert)
  | changeCipherSpec
  | data (b : Bytes)
  | keys (key iv : Bytes)

/-- What the sender does: `write_handshake`, `write_alert`, `write_change_cipher_spec`, `write_application_data`, or `set_encryptor` and `set_iv`. -/
def Sending.send (m : Mode) : Sending → St TlsWriter Unit
  | .handshake h => TlsWriter.writeHandshake m h
  | .alert a => TlsWriter.writeAlert m a
  | .changeCipherSpec => TlsWriter.writeChangeCipherSpec m
  | .data b => TlsWriter.writeApplicationData m b
  | .keys key iv => do
    TlsWriter.setEncryptor (.chacha m key)
    TlsWriter.setIv iv

/-- A history of calls of the sender. -/
def sendAll (m : Mode) : List Sending → St TlsWriter Unit
  | [] => pure ()
  | c :: cs => do
    c.send m
    sendAll m cs

/-- `n` calls of `read_message`. -/
def readMessages (m : Mode) : Nat → St TlsReader (List Message)
  | 0 => pure []
  | n + 1 => do
    let msg ← TlsReader.readMessage m
    let msgs ← readMessages m n
    return msg :: msgs

/-- What the receiver does: `read_message` for each message and each 2^14 bytes of data, `set_decryptor` and `set_iv` where the sender sets the keys. -/
def Sending.receive (m : Mode) : Sending → St TlsReader (List Message)
  | .data b => readMessages m ((b.length + 16383) / 16384)
  | .keys key iv => do
    TlsReader.setDecryptor (.chacha m key)
    TlsReader.setIv iv
    return []
  | _ => readMessages m 1

def receiveAll (m : Mode) : List Sending → St TlsReader (List Message)
  | [] => pure []
  | c :: cs => do
    let msgs ← c.receive m
    let rest ← receiveAll m cs
    return msgs ++ rest

/-! ### Specification -/

/-- The messages `msgs` are what was sent, in order; data may come in pieces of up to 2^14 bytes. -/
inductive Delivered : List Sending → List Message → Prop
  | nil : Delivered [] []
  | handshake {h cs ms} : Delivered cs ms → Delivered (.handshake h :: cs) (.HandshakeMessage h :: ms)
  | alert {a cs ms} : Delivered cs ms → Delivered (.alert a :: cs) (.AlertMessage a :: ms)
  | changeCipherSpec {cs ms} : Delivered cs ms → Delivered (.changeCipherSpec :: cs) (.ChangeCipherSpecMessage :: ms)
  | data {b : Bytes} {fs : List Bytes} {cs ms} : fs.flatten = b → (∀ f ∈ fs, f ≠ [] ∧ f.length ≤ 2 ^ 14) → Delivered cs ms → Delivered (.data b :: cs) (fs.map .ApplicationDataMessage ++ ms)
  | keys {key iv cs ms} : Delivered cs ms → Delivered (.keys key iv :: cs) ms

/-- Histories that are allowed: messages that can be sent, application data only under keys, keys set once. -/
def Allowed : Bool → List Sending → Prop
  | _, [] => True
  | p, .handshake h :: cs => Sendable h ∧ (∃ b, TlsItem.write h = .ok b) ∧ Allowed p cs
  | p, .data _ :: cs => p = true ∧ Allowed p cs
  | p, .keys key _ :: cs => p = false ∧ key.length = 32 ∧ Allowed true cs
  | p, _ :: cs => Allowed p cs

/-- The number of records a call uses. -/
def Sending.recordCount : Sending → Nat
  | .handshake h => (TlsItem.size h + 16383) / 16384
  | .data b => (b.length + 16383) / 16384
  | .keys _ _ => 0
  | _ => 1

/-- The call sets the keys. -/
def Sending.setsKeys : Sending → Bool
  | .handshake _ | .alert _ | .changeCipherSpec | .data _ => false
  | .keys _ _ => true

/-! ### Proofs -/

/-- Both ends between two calls: in step, nothing left over, keys set as `p` says. -/
structure Between (p : Bool) (w : TlsWriter) (r : TlsReader) : Prop where
  synced : Synced w r
  buffer : r.handshakeBuffer = {}
  faults : w.writer.faults = []
  isKeyed : w.encryptor.isSome = p
  noIv : p = false → w.iv = none

/-- One call and its receipt. -/
structure Carries (m m' : Mode) (c : Sending) (p : Bool) (w : TlsWriter) (r : TlsReader) : Prop where
  out : ∃ w' emitted, (c.send m).run w = (.ok (), w') ∧ w'.writer.wire = w.writer.wire ++ emitted ∧ w'.writeCount.toNat ≤ w.writeCount.toNat + c.recordCount ∧
    ∀ (rd : Reader) (l : List Sym), rd.stream = ofBytes emitted ++ l → ∃ r' msgs, (c.receive m').run { r with reader := rd } = (.ok msgs, r') ∧
      Between (p || c.setsKeys) w' r' ∧ r'.reader.stream = l ∧ ∀ cs ms, Delivered cs ms → Delivered (c :: cs) (msgs ++ ms)

theorem readMessages_one {m : Mode} {s s' : TlsReader} {msg : Message} (h : (readMessage m).run s = (.ok msg, s')) : (readMessages m 1).run s = (.ok [msg], s') := by
  rw [readMessages, St.bind_of_ok h]; rfl

/-- A single record that is a message. -/
theorem Incoming.single (m : Mode) {w w' : TlsWriter} {rc : Record × Bytes} {sent : List (Record × Bytes)} {l : List Sym} {s : TlsReader} {msg : Message}
    (h : Incoming w (rc :: sent) w' l s) (hb : s.handshakeBuffer = {}) (hty : rc.1.contentType ≠ .HandshakeTy) (hm : recordMessage rc.1 = .ok msg) :
    ∃ w1 s1, (TlsReader.readMessage m).run s = (.ok msg, s1) ∧ Incoming w1 sent w' l s1 ∧ s1.handshakeBuffer = {} := by
  obtain ⟨w1, r', h1, h2⟩ := h.record m
  refine ⟨w1, _, ?_, h2, hb⟩
  rw [readMessage_record (by rw [hb]; exact NoMessage.empty) h1 hty, hm]

theorem Incoming.ended {w w' : TlsWriter} {l : List Sym} {s : TlsReader} (h : Incoming w [] w' l s) : Synced w' s ∧ s.reader.stream = l := by
  obtain ⟨hsent, hsy, -, -, hst⟩ := h
  cases hsent
  exact ⟨hsy, hst⟩

theorem Incoming.many (m : Mode) {w' : TlsWriter} {l : List Sym} (sent : List (Record × Bytes)) : ∀ {w : TlsWriter} {s : TlsReader}, Incoming w sent w' l s →
    s.handshakeBuffer = {} → (∀ rc ∈ sent, rc.1.contentType = .ApplicationDataTy) →
    ∃ s1, (readMessages m sent.length).run s = (.ok (sent.map fun rc => .ApplicationDataMessage rc.1.fragment), s1) ∧ Synced w' s1 ∧ s1.reader.stream = l ∧
      s1.handshakeBuffer = {} := by
  induction sent with
  | nil => intro w s h hb _; exact ⟨s, rfl, h.ended.1, h.ended.2, hb⟩
  | cons rc sent ih =>
    intro w s h hb hty
    have h0 := hty rc (by simp)
    obtain ⟨w1, s1, h1, h2, h3⟩ := h.single m hb (by rw [h0]; decide) (msg := .ApplicationDataMessage rc.1.fragment) (by rw [recordMessage, h0])
    obtain ⟨s2, h4, h5⟩ := ih h2 h3 (fun rc h => hty rc (List.mem_cons_of_mem _ h))
    refine ⟨s2, ?_, h5⟩
    rw [List.length_cons, readMessages, St.bind_of_ok h1]
    rw [St.bind_of_ok h4]
    rfl

/-- A `write_data` and the state of both ends. -/
theorem carried {m : Mode} {p : Bool} {w : TlsWriter} {r : TlsReader} (hi : Between p w r) (ty : ContentType) (data : Bytes)
    (hn : w.writeCount.toNat + (data.length + 16383) / 16384 < 2 ^ 64) :
    ∃ w' sent, (TlsWriter.writeData m ty data).run w = (.ok (), w') ∧ w'.writer.wire = w.writer.wire ++ wireOf sent ∧
      w'.writeCount.toNat = w.writeCount.toNat + (data.length + 16383) / 16384 ∧ sent.map (·.1) = TlsWriter.recordsOf ty (chunks RECORD_MAX_LEN data) ∧
      sent.length = (data.length + 16383) / 16384 ∧
      (∀ (rd : Reader) (l : List Sym), rd.stream = ofBytes (wireOf sent) ++ l → Incoming w sent w' l { r with reader := rd }) ∧
      ∀ r', Synced w' r' → r'.handshakeBuffer = {} → Between p w' r' := by
  obtain ⟨w', sent, h1, h2, h3, h4, h5, h6, h7, h8⟩ := peer_writes m ty data w hi.synced.sealsShort hi.faults hn
  refine ⟨w', sent, h1, h2.wire, h7, h3, h8, fun rd l hrd => ⟨h2, hi.synced, fun rc hrc => (records_short h3 rc hrc).2.1, by rw [h8]; exact hn, hrd⟩, fun r' hs hb => ?_⟩
  exact ⟨hs, hb, h5, by rw [h6]; exact hi.isKeyed, fun hp => by rw [h2.same.2.1]; exact hi.noIv hp⟩

theorem carries_single {m m' : Mode} {p : Bool} {w : TlsWriter} {r : TlsReader} (hi : Between p w r) {ty : ContentType} {data : Bytes} {msg : Message}
    (hn : w.writeCount.toNat + 1 < 2 ^ 64) (hl : (data.length + 16383) / 16384 = 1) (hty : ty ≠ .HandshakeTy)
    (hm : recordMessage ⟨ty, 3, 3, data⟩ = .ok msg) :
    ∃ w' emitted, (TlsWriter.writeData m ty data).run w = (.ok (), w') ∧ w'.writer.wire = w.writer.wire ++ emitted ∧ w'.writeCount.toNat ≤ w.writeCount.toNat + 1 ∧
      ∀ (rd : Reader) (l : List Sym), rd.stream = ofBytes emitted ++ l → ∃ r', (readMessages m' 1).run { r with reader := rd } = (.ok [msg], r') ∧
        Between p w' r' ∧ r'.reader.stream = l := by
  obtain ⟨w', sent, h1, h2, h3, h4, h5, h6, h7⟩ := carried (m := m) hi ty data (by omega)
  refine ⟨w', _, h1, h2, by omega, fun rd l hrd => ?_⟩
  have hinc := h6 rd l hrd
  match sent, h5, h4, hinc with
  | [], h5, _, _ => simp at h5; omega
  | [rc], _, h4, hinc =>
    have hpay := records_payload h4
    have hrec : rc.1 = ⟨ty, 3, 3, data⟩ := by
      have hch : (chunks RECORD_MAX_LEN data) = [data] := by
        have h := congrArg List.length h4
        simp only [TlsWriter.recordsOf, List.length_map, List.length_cons, List.length_nil] at h
        have hf := chunks_flatten (show 0 < RECORD_MAX_LEN by decide) data
        match hc : chunks RECORD_MAX_LEN data, h, hf with
        | [x], _, hf => simpa using hf
      rw [hch] at h4
      simpa [TlsWriter.recordsOf, TLS_VERSION] using h4
    obtain ⟨w1, s1, g1, g2, g3⟩ := hinc.single m' hi.buffer (by rw [hrec]; exact hty) (by rw [hrec]; exact hm)
    exact ⟨s1, readMessages_one g1, h7 s1 g2.ended.1 g3, g2.ended.2⟩
  | _ :: _ :: _, h5, _, _ => simp at h5; omega

theorem alert_written (a : Alert) : ∃ x y, TlsItem.write a = .ok [x, y] ∧ alertMessage [x, y] = .ok (.AlertMessage a) := by
  obtain ⟨l, d⟩ := a
  cases l <;> cases d <;> exact ⟨_, _, rfl, by decide +kernel⟩

theorem carries (m m' : Mode) (c : Sending) {p : Bool} {cs : List Sending} {w : TlsWriter} {r : TlsReader} (hi : Between p w r) (ha : Allowed p (c :: cs))
    (hn : w.writeCount.toNat + c.recordCount < 2 ^ 64) : Carries m m' c p w r := by
  constructor
  cases c with
  | handshake h =>
    obtain ⟨hse, ⟨b, hb⟩, -⟩ := ha
    have hsize : TlsItem.size h = b.length := (C02_size_handshake h b hse.1 hb).symm
    simp only [Sending.recordCount, hsize] at hn ⊢
    obtain ⟨w', sent, h1, h2, h3, h4, h5, h6, h7⟩ := carried (m := m) hi .HandshakeTy b hn
    refine ⟨w', _, ?_, h2, by omega, fun rd l hrd => ?_⟩
    · show (TlsWriter.writeHandshake m h).run w = _
      rw [TlsWriter.writeHandshake, hb]
      exact h1
    · have hpay := records_payload h4
      have hrs : HandshakeRecords sent := fun rc hrc => ⟨(records_short h4 rc hrc).1, (records_short h4 rc hrc).2.2⟩
      obtain ⟨w1, sent1, s1, g1, g2, g3, g4, -⟩ := (h6 rd l hrd).readMessage m' hrs (h := h) (hs := []) (by
        show Encodes [h] (r.handshakeBuffer.buf ++ payload sent)
        rw [hi.buffer, hpay]
        have := Encodes.cons hse hb .nil
        simpa using this)
      generalize hq : s1.handshakeBuffer.buf ++ payload sent1 = q at g4
      cases g4
      obtain ⟨q1, q2⟩ := List.append_eq_nil_iff.mp hq
      have hnil : sent1 = [] := by
        match sent1, q2, g3 with
        | [], _, _ => rfl
        | rc :: sent1, q2, g3 =>
          rw [payload, List.flatMap_cons, List.append_eq_nil_iff] at q2
          exact absurd q2.1 (hrs rc (g3.subset (by simp))).2
      subst hnil
      refine ⟨s1, _, readMessages_one g1, ?_, g2.ended.2, fun cs ms hd => .handshake hd⟩
      rw [Sending.setsKeys, Bool.or_false]
      refine h7 s1 g2.ended.1 ?_
      cases hx : s1.handshakeBuffer
      rw [hx] at q1
      simp only at q1
      rw [q1]
  | alert a =>
    obtain ⟨x, y, e1, e2⟩ := alert_written a
    obtain ⟨w', em, h1, h2, h3, h4⟩ := carries_single (m := m) (m' := m') hi (ty := .AlertTy) (data := [x, y]) (msg := .AlertMessage a) hn (by simp) (by decide) e2
    refine ⟨w', em, ?_, h2, h3, fun rd l hrd => ?_⟩
    · show (TlsWriter.writeAlert m a).run w = _
      rw [TlsWriter.writeAlert, e1]
      exact h1
    · obtain ⟨r', g1, g2, g3⟩ := h4 rd l hrd
      exact ⟨r', _, g1, by rw [Sending.setsKeys, Bool.or_false]; exact g2, g3, fun cs ms hd => .alert hd⟩
  | changeCipherSpec =>
    obtain ⟨w', em, h1, h2, h3, h4⟩ := carries_single (m := m) (m' := m') hi (ty := .ChangeCipherSpecTy) (data := [1]) (msg := .ChangeCipherSpecMessage) hn (by simp) (by decide) rfl
    refine ⟨w', em, h1, h2, h3, fun rd l hrd => ?_⟩
    obtain ⟨r', g1, g2, g3⟩ := h4 rd l hrd
    exact ⟨r', _, g1, by rw [Sending.setsKeys, Bool.or_false]; exact g2, g3, fun cs ms hd => .changeCipherSpec hd⟩
  | data b =>
    obtain ⟨rfl, -⟩ := ha
    obtain ⟨w', sent, h1, h2, h3, h4, h5, h6, h7⟩ := carried (m := m) hi .ApplicationDataTy b hn
    refine ⟨w', _, ?_, h2, by simp only [Sending.recordCount]; omega, fun rd l hrd => ?_⟩
    · show (TlsWriter.writeApplicationData m b).run w = _
      have : w.encryptor.isNone = false := by have := hi.isKeyed; cases hw : w.encryptor <;> simp [hw] at this ⊢
      rw [TlsWriter.writeApplicationData]
      simp only [St.bind_run, St.get_run, this]
      exact h1
    · obtain ⟨s1, g1, g2, g3, g4⟩ := (h6 rd l hrd).many m' sent hi.buffer (fun rc hrc => (records_short h4 rc hrc).1)
      refine ⟨s1, _, by rw [Sending.receive, ← h5]; exact g1, by rw [Sending.setsKeys, Bool.or_false]; exact h7 s1 g2 g4, g3, fun cs ms hd => ?_⟩
      have := Delivered.data (b := b) (fs := sent.map fun rc => rc.1.fragment) (by rw [← records_payload h4, payload, List.flatMap_def])
        (fun f hf => by
          obtain ⟨rc, hrc, rfl⟩ := List.mem_map.mp hf
          exact ⟨(records_short h4 rc hrc).2.2, (records_short h4 rc hrc).2.1⟩) hd
      rw [List.map_map] at this
      exact this
  | keys key iv =>
    obtain ⟨rfl, hk, -⟩ := ha
    have he : w.encryptor = none := by have := hi.isKeyed; cases hw : w.encryptor <;> simp [hw] at this ⊢
    have hv := hi.noIv rfl
    obtain ⟨hc, hiv, hed⟩ := hi.synced
    have hd : r.decryptor = none := by
      rcases hed with h | ⟨e, d, h, -⟩
      · exact h.2
      · rw [he] at h; cases h
    refine ⟨{ w with encryptor := some (.chacha m key), writeCount := 0, iv := some iv }, [], ?_, by simp, by simp, fun rd l hrd => ?_⟩
    · obtain ⟨ww, we, wc, wi, wl⟩ := w
      simp only at he hv
      subst he hv
      rfl
    · refine ⟨{ r with reader := rd, decryptor := some (.chacha m' key), readCount := 0, iv := some iv }, [], ?_, ?_, by simpa [ofBytes] using hrd, fun cs ms hd => .keys hd⟩
      · obtain ⟨rr, rdd, rc, rb, ri⟩ := r
        simp only at hd hiv
        rw [hv] at hiv
        subst hd hiv
        rfl
      · exact ⟨⟨rfl, rfl, .inr ⟨_, _, rfl, rfl, matching_chacha m m' key hk⟩⟩, hi.buffer, hi.faults, rfl, fun h => by simp [Sending.setsKeys] at h⟩

theorem allowed_tail {p : Bool} {c : Sending} {cs : List Sending} (h : Allowed p (c :: cs)) : Allowed (p || c.setsKeys) cs := by
  cases c with
  | handshake => rw [Sending.setsKeys, Bool.or_false]; exact h.2.2
  | alert => rw [Sending.setsKeys, Bool.or_false]; exact h
  | changeCipherSpec => rw [Sending.setsKeys, Bool.or_false]; exact h
  | data => rw [Sending.setsKeys, Bool.or_false]; exact h.2
  | keys => rw [Sending.setsKeys, Bool.or_true]; exact h.2.2

/-! ### C99 -/

theorem stream_singles (b : Bytes) : Reader.stream ⟨b.map fun x => .data [x]⟩ = ofBytes b := by
  induction b with
  | nil => rfl
  | cons x b ih => rw [List.map_cons, Reader.stream_data _ (by simp), ih]; rfl

/-- Beginning anywhere between two calls. -/
theorem channel (m m' : Mode) (cs : List Sending) : ∀ {p : Bool} {w : TlsWriter} {r : TlsReader}, Between p w r → Allowed p cs →
    w.writeCount.toNat + (cs.map Sending.recordCount).sum < 2 ^ 64 →
    ∃ w' emitted, (sendAll m cs).run w = (.ok (), w') ∧ w'.writer.wire = w.writer.wire ++ emitted ∧
      ∀ (rd : Reader) (l : List Sym), rd.stream = ofBytes emitted ++ l →
        ∃ r' msgs, (receiveAll m' cs).run { r with reader := rd } = (.ok msgs, r') ∧ Delivered cs msgs ∧ r'.reader.stream = l := by
  induction cs with
  | nil => intro p w r hi _ _; exact ⟨w, [], rfl, by simp, fun rd l hrd => ⟨_, [], rfl, .nil, by simpa [ofBytes] using hrd⟩⟩
  | cons c cs ih =>
    intro p w r hi ha hn
    rw [List.map_cons, List.sum_cons] at hn
    obtain ⟨w1, e1, h1, h2, h3, h4⟩ := (carries m m' c hi ha (by omega)).out
    -- what is sent does not depend on the reader, so any reader in step will do
    obtain ⟨r0, -, -, i0, -⟩ := h4 ⟨e1.map fun b => .data [b]⟩ [] (by rw [stream_singles, List.append_nil])
    obtain ⟨w2, e2, g1, g2, -⟩ := ih i0 (allowed_tail ha) (by omega)
    refine ⟨w2, e1 ++ e2, ?_, by rw [g2, h2, List.append_assoc], fun rd l hrd => ?_⟩
    · rw [sendAll, St.bind_of_ok h1]; exact g1
    · rw [ofBytes_append, List.append_assoc] at hrd
      obtain ⟨r1, ms1, k1, k2, k3, k4⟩ := h4 rd _ hrd
      obtain ⟨w2', e2', g1', g2', g3'⟩ := ih k2 (allowed_tail ha) (by omega)
      rw [g1] at g1'
      cases g1'
      have : e2' = e2 := by rw [g2] at g2'; exact (List.append_cancel_left g2').symm
      subst this
      obtain ⟨r2, ms2, q1, q2, q3⟩ := g3' r1.reader l k3
      refine ⟨r2, ms1 ++ ms2, ?_, k4 _ _ q2, q3⟩
      rw [receiveAll, St.bind_of_ok k1]
      have : ({ r1 with reader := r1.reader } : TlsReader) = r1 := rfl
      rw [this] at q1
      rw [St.bind_of_ok q1]
      rfl

/-- C99: for every allowed history of calls on a new `TlsWriter` over a transport that works, all calls succeed, and a new `TlsReader` that gets the bytes (cut in any
way, with anything after them) and sets the keys at the same place gets exactly the messages that were sent, in order, and takes exactly these bytes. -/
theorem C99_channel (m m' : Mode) (cs : List Sending) (ha : Allowed false cs) (hn : (cs.map Sending.recordCount).sum < 2 ^ 64) (wire : Bytes) :
    ∃ w' emitted, (sendAll m cs).run (TlsWriter.new ⟨wire, []⟩) = (.ok (), w') ∧ w'.writer.wire = wire ++ emitted ∧
      ∀ (rd : Reader) (l : List Sym), rd.stream = ofBytes emitted ++ l →
        ∃ r' msgs, (receiveAll m' cs).run (TlsReader.new rd) = (.ok msgs, r') ∧ Delivered cs msgs ∧ r'.reader.stream = l := by
  have hi : Between false (TlsWriter.new ⟨wire, []⟩) (TlsReader.new ⟨[]⟩) := ⟨⟨rfl, rfl, .inl ⟨rfl, rfl⟩⟩, rfl, rfl, rfl, fun _ => rfl⟩
  obtain ⟨w', em, h1, h2, h3⟩ := channel m m' cs hi ha (by show 0 + _ < _; omega)
  exact ⟨w', em, h1, h2, h3⟩

/-- The hypotheses can be met: a handshake message in clear, ChangeCipherSpec, then keys, a protected handshake message, data of three records, and an alert. -/
example (key iv data : Bytes) (hk : key.length = 32) (hd : data.length = 40000) :
    Allowed false [.handshake (.server_hello_done ⟨⟩), .changeCipherSpec, .keys key iv, .handshake (.server_hello_done ⟨⟩), .data data, .alert ⟨.fatal, .close_notify⟩] ∧
      ([Sending.handshake (.server_hello_done ⟨⟩), .changeCipherSpec, .keys key iv, .handshake (.server_hello_done ⟨⟩), .data data, .alert ⟨.fatal, .close_notify⟩].map
        Sending.recordCount).sum = 7 := by
  have hs : Sendable (.server_hello_done ⟨⟩) := ⟨trivial, by simp [extensionsOf], by decide +kernel⟩
  refine ⟨⟨hs, ⟨_, rfl⟩, rfl, hk, hs, ⟨_, rfl⟩, rfl, trivial⟩, ?_⟩
  have : TlsItem.size (Handshake.server_hello_done ⟨⟩) = 4 := rfl
  simp [Sending.recordCount, hd, this]

end Husk
