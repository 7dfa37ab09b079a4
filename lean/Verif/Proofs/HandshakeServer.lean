import Verif.Proofs.HandshakeRun
/-! The server's side of a handshake as bytes: framed messages, records in clear and protected records, and what the client reads from them. -/

namespace Husk

open Item Spec TlsReader

/-- `b` is a complete handshake message that decodes to `h`. -/
def Framed (b : Bytes) (h : Handshake) : Prop :=
  ∃ ty body, body.length < 2 ^ 24 ∧ b = handshakeBytes ty body ∧ (TlsItem.read (α := Handshake)).run b = (.ok h, [])

namespace Framed

theorem wanted {ty : UInt8} {body : Bytes} (hl : body.length < 2 ^ 24) (x : Bytes) :
    beNat (((handshakeBytes ty body ++ x).drop 1).take 3) + 4 = (handshakeBytes ty body).length := by
  have e : ((handshakeBytes ty body ++ x).drop 1).take 3 = beBytes 3 body.length := by
    rw [handshakeBytes, List.cons_append, List.drop_succ_cons, List.drop_zero, List.append_assoc, List.take_append_of_le_length (by simp), List.take_of_length_le (by simp)]
  rw [e, beNat_beBytes, Nat.mod_eq_of_lt (show body.length < 256 ^ 3 from hl)]
  simp [handshakeBytes]
  omega

theorem length_ge {b : Bytes} {h : Handshake} (hf : Framed b h) : 4 ≤ b.length := by
  obtain ⟨ty, body, _, rfl, _⟩ := hf
  simp [handshakeBytes]

theorem front {b : Bytes} {h : Handshake} (hf : Framed b h) (x : Bytes) : HandshakeBuffer.getMessage.run ⟨b ++ x⟩ = (.ok (some h), ⟨x⟩) := by
  have h4 := hf.length_ge
  obtain ⟨ty, body, hl, rfl, hr⟩ := hf
  unfold HandshakeBuffer.getMessage
  simp only
  rw [if_neg (by simp; omega), wanted hl, if_neg (by simp), List.take_left', List.drop_left', hr]
  · rfl
  · rfl

theorem part {b buf t : Bytes} {h : Handshake} (hf : Framed b h) (hp : buf ++ t = b) (ht : t ≠ []) : HandshakeBuffer.getMessage.run ⟨buf⟩ = (.ok none, ⟨buf⟩) := by
  have htl : 0 < t.length := List.length_pos_iff.mpr ht
  obtain ⟨ty, body, hl, rfl, hr⟩ := hf
  unfold HandshakeBuffer.getMessage
  simp only
  split
  · rfl
  · rename_i h4
    have hwant := wanted (ty := ty) hl []
    rw [List.append_nil, ← hp] at hwant
    have e : (((buf ++ t).drop 1).take 3) = ((buf.drop 1).take 3) := by
      rw [List.drop_append_of_le_length (by omega), List.take_append_of_le_length (by simp; omega)]
    rw [e] at hwant
    rw [if_pos]
    rw [List.length_append] at hwant
    omega

end Framed

/-- A message that is in the buffer or on its way is delivered, whatever the cuts; `bs` is what follows it. -/
theorem Incoming.loopFramed (m : Mode) {h : Handshake} {b bs : Bytes} (hb : Framed b h)
    {w' : TlsWriter} {l : List Sym} (sent : List (Record × Bytes)) (fuel : Nat) :
    ∀ {w : TlsWriter} {s : TlsReader}, Incoming w sent w' l s → HandshakeRecords sent → s.handshakeBuffer.buf ++ payload sent = b ++ bs →
      s.handshakeBuffer.buf.length < b.length → countBytes s.reader.stream < fuel →
    ∃ w1 sent1 s1, (Husk.TlsReader.messageLoop m fuel).run s = (.ok (.HandshakeMessage h), s1) ∧ Incoming w1 sent1 w' l s1 ∧ sent1 <:+ sent ∧
      s1.handshakeBuffer.buf ++ payload sent1 = bs ∧ s1.decryptor = s.decryptor := by
  induction sent generalizing fuel with
  | nil =>
    intro w s hi hh hp hb hf
    have := congrArg List.length hp
    simp [payload] at this
    omega
  | cons rc sent ih =>
    intro w s hi hh hp hlt hf
    cases fuel with
    | zero => omega
    | succ fuel =>
      obtain ⟨w1, r', h1, h2⟩ := hi.record m
      have hcons := readRecord_consumes h1
      obtain ⟨hty, hne⟩ := hh rc (by simp)
      rw [payload, List.flatMap_cons, ← List.append_assoc] at hp
      rcases Codec.split_front hp with ⟨x, hx1, hx2⟩ | ⟨t, ht, hx⟩
      · have hg : HandshakeBuffer.getMessage.run ⟨s.handshakeBuffer.buf ++ rc.1.fragment⟩ = (.ok (some h), ⟨x⟩) := by
          rw [hx1]; exact hb.front x
        refine ⟨w1, sent, _, ?_, h2.buffer ⟨x⟩, List.suffix_cons _ _, hx2, rfl⟩
        rw [Husk.TlsReader.messageLoop, St.bind_of_ok (messageStep_handshake h1 hty hne hg)]
        rfl
      · have hg : HandshakeBuffer.getMessage.run ⟨s.handshakeBuffer.buf ++ rc.1.fragment⟩ = (.ok none, ⟨s.handshakeBuffer.buf ++ rc.1.fragment⟩) :=
          hb.part hx ht
        obtain ⟨w2, sent1, s1, g1, g2, g3, g4, g5⟩ := ih fuel (h2.buffer ⟨s.handshakeBuffer.buf ++ rc.1.fragment⟩) (fun rc h => hh rc (List.mem_cons_of_mem _ h)) hp
          (by
            have h1 := congrArg List.length hx
            have h2 := List.length_pos_iff.mpr ht
            rw [List.length_append] at h1
            show (s.handshakeBuffer.buf ++ rc.1.fragment).length < b.length
            omega)
          (by
            show countBytes r'.stream < fuel
            have : countBytes r'.stream + 5 ≤ countBytes s.reader.stream := hcons
            omega)
        refine ⟨w2, sent1, s1, ?_, g2, g3.trans (List.suffix_cons _ _), g4, g5⟩
        rw [Husk.TlsReader.messageLoop, St.bind_of_ok (messageStep_handshake h1 hty hne hg)]
        exact g1

theorem Incoming.readFramed (m : Mode) {h : Handshake} {b bs : Bytes} {w w' : TlsWriter} {sent : List (Record × Bytes)} {l : List Sym} {s : TlsReader}
    (hi : Incoming w sent w' l s) (hh : HandshakeRecords sent) (hb : Framed b h) (hbs : s.handshakeBuffer.buf ++ payload sent = b ++ bs) :
    ∃ w1 sent1 s1, (Husk.TlsReader.readMessage m).run s = (.ok (.HandshakeMessage h), s1) ∧ Incoming w1 sent1 w' l s1 ∧ sent1 <:+ sent ∧
      s1.handshakeBuffer.buf ++ payload sent1 = bs ∧ s1.decryptor = s.decryptor := by
  rcases Codec.split_front hbs with ⟨x, hx1, hx2⟩ | ⟨t, ht, hx⟩
  · have hg : HandshakeBuffer.getMessage.run s.handshakeBuffer = (.ok (some h), ⟨x⟩) := by
      have : s.handshakeBuffer = ⟨b ++ x⟩ := by cases hq : s.handshakeBuffer; rw [hq] at hx1; rw [← hx1]
      rw [this]; exact hb.front x
    have h1 : (onBuffer HandshakeBuffer.getMessage).run s = (.ok (some h), { s with handshakeBuffer := ⟨x⟩ }) := by
      simp only [onBuffer, St.zoom_run, hg]
    refine ⟨w, sent, { s with handshakeBuffer := ⟨x⟩ }, ?_, hi.buffer _, List.suffix_refl _, hx2, rfl⟩
    rw [Husk.TlsReader.readMessage, St.bind_of_ok h1]; rfl
  · have hg : HandshakeBuffer.getMessage.run s.handshakeBuffer = (.ok none, s.handshakeBuffer) := hb.part (buf := s.handshakeBuffer.buf) hx ht
    have h1 : (onBuffer HandshakeBuffer.getMessage).run s = (.ok none, s) := by
      simp only [onBuffer, St.zoom_run, hg]
    obtain ⟨w1, sent1, s1, g1, g2, g3, g4, g5⟩ := Incoming.loopFramed m hb sent (s.reader.bytes + 1) hi hh hbs
      (by
        have h1 := congrArg List.length hx
        have h2 := List.length_pos_iff.mpr ht
        rw [List.length_append] at h1
        omega) (by rw [Reader.bytes_eq]; omega)
    refine ⟨w1, sent1, s1, ?_, g2, g3, g4, g5⟩
    rw [Husk.TlsReader.readMessage, St.bind_of_ok h1]
    exact g1

/-- Handshake records that do not complete a message, then ChangeCipherSpec: it is delivered, and the bytes stay in the buffer. -/
theorem Incoming.loopChange (m : Mode) {w' : TlsWriter} {l : List Sym} (sent : List (Record × Bytes)) (ct : Bytes) (fuel : Nat) :
    ∀ {w : TlsWriter} {s : TlsReader}, Incoming w (sent ++ [(⟨.ChangeCipherSpecTy, 3, 3, [1]⟩, ct)]) w' l s → HandshakeRecords sent →
      (∀ x t, x ++ t = s.handshakeBuffer.buf ++ payload sent → HandshakeBuffer.getMessage.run ⟨x⟩ = (.ok none, ⟨x⟩)) → countBytes s.reader.stream < fuel →
    ∃ s1, (Husk.TlsReader.messageLoop m fuel).run s = (.ok .ChangeCipherSpecMessage, s1) ∧ Incoming w' [] w' l s1 ∧
      s1.handshakeBuffer.buf = s.handshakeBuffer.buf ++ payload sent ∧ s1.decryptor = s.decryptor := by
  induction sent generalizing fuel with
  | nil =>
    intro w s hi hh hp hf
    cases fuel with
    | zero => omega
    | succ fuel =>
      obtain ⟨w1, r', h1, h2⟩ := hi.record m
      have hw1 : w1 = w' := by have := h2.ok; cases this; rfl
      subst hw1
      refine ⟨_, ?_, h2, by simp [payload], rfl⟩
      rw [Husk.TlsReader.messageLoop]
      have hstep : (messageStep m).run s = (.ok (some .ChangeCipherSpecMessage), { s with reader := r', readCount := s.readCount + 1 }) := by
        rw [messageStep, St.bind_of_ok h1]
        rfl
      rw [St.bind_of_ok hstep]
      rfl
  | cons rc sent ih =>
    intro w s hi hh hp hf
    cases fuel with
    | zero => omega
    | succ fuel =>
      obtain ⟨w1, r', h1, h2⟩ := Incoming.record m (sent := sent ++ [(⟨.ChangeCipherSpecTy, 3, 3, [1]⟩, ct)]) hi
      have hcons := readRecord_consumes h1
      obtain ⟨hty, hne⟩ := hh rc (by simp)
      rw [payload, List.flatMap_cons, ← List.append_assoc] at hp
      have hg : HandshakeBuffer.getMessage.run ⟨s.handshakeBuffer.buf ++ rc.1.fragment⟩ = (.ok none, ⟨s.handshakeBuffer.buf ++ rc.1.fragment⟩) := hp _ _ rfl
      obtain ⟨s1, g1, g2, g3, g4⟩ := ih fuel (h2.buffer ⟨s.handshakeBuffer.buf ++ rc.1.fragment⟩) (fun rc h => hh rc (List.mem_cons_of_mem _ h)) hp
        (by
          show countBytes r'.stream < fuel
          have : countBytes r'.stream + 5 ≤ countBytes s.reader.stream := hcons
          omega)
      refine ⟨s1, ?_, g2, ?_, g4⟩
      · rw [Husk.TlsReader.messageLoop, St.bind_of_ok (messageStep_handshake h1 hty hne hg)]
        exact g1
      · rw [g3, payload, payload, List.flatMap_cons, List.append_assoc]

theorem Incoming.readChange (m : Mode) {w w' : TlsWriter} {sent : List (Record × Bytes)} {ct : Bytes} {l : List Sym} {s : TlsReader}
    (hi : Incoming w (sent ++ [(⟨.ChangeCipherSpecTy, 3, 3, [1]⟩, ct)]) w' l s) (hh : HandshakeRecords sent)
    (hp : ∀ x t, x ++ t = s.handshakeBuffer.buf ++ payload sent → HandshakeBuffer.getMessage.run ⟨x⟩ = (.ok none, ⟨x⟩)) :
    ∃ s1, (Husk.TlsReader.readMessage m).run s = (.ok .ChangeCipherSpecMessage, s1) ∧ Incoming w' [] w' l s1 ∧
      s1.handshakeBuffer.buf = s.handshakeBuffer.buf ++ payload sent ∧ s1.decryptor = s.decryptor := by
  have h1 : (onBuffer HandshakeBuffer.getMessage).run s = (.ok none, s) := by
    have hg := hp _ _ rfl
    have : (⟨s.handshakeBuffer.buf⟩ : HandshakeBuffer) = s.handshakeBuffer := rfl
    rw [this] at hg
    simp only [onBuffer, St.zoom_run, hg]
  obtain ⟨s1, g1, g2⟩ := Incoming.loopChange m sent ct (s.reader.bytes + 1) hi hh hp (by rw [Reader.bytes_eq]; omega)
  refine ⟨s1, ?_, g2⟩
  rw [Husk.TlsReader.readMessage, St.bind_of_ok h1]
  exact g1

/-! ### Records out of fragments -/

/-- Fragments a record can carry. -/
def Fits (fs : List Bytes) : Prop := ∀ f ∈ fs, f ≠ [] ∧ f.length ≤ 2 ^ 14

theorem Fits.records {fs : List Bytes} (hf : Fits fs) {ty : ContentType} {sent : List (Record × Bytes)} (hm : sent.map (·.1) = TlsWriter.recordsOf ty fs) :
    (∀ rc ∈ sent, rc.1.contentType = ty ∧ rc.1.fragment ≠ [] ∧ rc.1.fragment.length ≤ RECORD_MAX_LEN) ∧ payload sent = fs.flatten := by
  constructor
  · intro rc hrc
    have : rc.1 ∈ TlsWriter.recordsOf ty fs := by rw [← hm]; exact List.mem_map.mpr ⟨rc, hrc, rfl⟩
    obtain ⟨f, h1, h2⟩ := List.mem_map.mp this
    rw [← h2]
    exact ⟨rfl, (hf f h1).1, (hf f h1).2⟩
  · have : payload sent = (sent.map (·.1)).flatMap (·.fragment) := by rw [payload, List.flatMap_map]
    rw [this, hm, TlsWriter.recordsOf, List.flatMap_map]
    show (fs.map fun a => a).flatten = fs.flatten
    rw [List.map_id']

/-- A peer sends the fragments. -/
theorem fragments_sent {fs : List Bytes} (hf : ∀ f ∈ fs, f.length ≤ 2 ^ 14) (ty : ContentType) (w : TlsWriter) (hs : w.SealsShort) (h0 : w.writer.faults = [])
    (hn : w.writeCount.toNat + fs.length < 2 ^ 64) : ∃ w' sent, w.Sent sent w' ∧ sent.map (·.1) = TlsWriter.recordsOf ty fs ∧ w'.writer.faults = [] ∧
      w'.encryptor = w.encryptor ∧ w'.iv = w.iv ∧ w'.writeCount.toNat = w.writeCount.toNat + fs.length ∧ sent.length = fs.length := by
  obtain ⟨w', h1⟩ := TlsWriter.writeChunks_ok (m := .debug) (ty := ty) hf hs h0 hn
  obtain ⟨sent, h2, h3⟩ := TlsWriter.writeChunks_inv hf h1
  have hl : sent.length = fs.length := by rw [← List.length_map (f := Prod.fst), h3, TlsWriter.recordsOf, List.length_map]
  obtain ⟨e1, e2, e3, e4⟩ := h2.same
  refine ⟨w', sent, h2, h3, e4 h0, e1, e2, ?_, hl⟩
  rw [e3, UInt64.toNat_add, hl, UInt64.toNat_ofNat']
  omega

theorem Fits.le {fs : List Bytes} (hf : Fits fs) : ∀ f ∈ fs, f.length ≤ 2 ^ 14 := fun f h => (hf f h).2

/-- In clear. -/
theorem sent_plain {w w' : TlsWriter} {sent : List (Record × Bytes)} (h : w.Sent sent w') : ∀ {ty : ContentType} {fs : List Bytes}, w.encryptor = none →
    sent.map (·.1) = TlsWriter.recordsOf ty fs → wireOf sent = fs.flatMap (recordBytes ty.toU8 3 3) := by
  induction h with
  | nil =>
    intro ty fs _ h
    cases fs with
    | nil => rfl
    | cons => cases h
  | cons hw _ ih =>
    intro ty fs he h
    cases fs with
    | nil => cases h
    | cons f fs =>
      simp only [List.map_cons, TlsWriter.recordsOf, List.cons.injEq] at h
      have hs := hw.seal_ok
      rw [sealed_plain he, h.1] at hs
      cases hs
      have := ih (hw.encryptor.trans he) h.2
      rw [wireOf] at this ⊢
      rw [List.flatMap_cons, this, List.flatMap_cons, h.1]
      rfl

/-- Under the keys. -/
theorem sent_protected {w w' : TlsWriter} {sent : List (Record × Bytes)} {m : Mode} {key iv : Bytes} (hk : key.length = 32) (hl : iv.length = 12) (h : w.Sent sent w') :
    ∀ {ty : ContentType} {fs : List Bytes}, w.encryptor = some (.chacha m key) → w.iv = some iv → (∀ f ∈ fs, f.length ≤ 2 ^ 14) →
    sent.map (·.1) = TlsWriter.recordsOf ty fs → w.writeCount.toNat + fs.length < 2 ^ 64 → wireOf sent = protectedRecords key iv ty.toU8 w.writeCount.toNat fs := by
  induction h with
  | nil =>
    intro ty fs _ _ _ h _
    cases fs with
    | nil => rfl
    | cons => cases h
  | cons hw _ ih =>
    intro ty fs he hi hf h hn
    cases fs with
    | nil => cases h
    | cons f fs =>
      simp only [List.map_cons, TlsWriter.recordsOf, List.cons.injEq] at h
      have hs := hw.seal_ok
      rw [h.1] at hs
      have hc := sealed_chacha he hk hi hl ty f (hf f (by simp))
      have hcc := hs.symm.trans hc
      cases hcc
      simp only [List.length_cons] at hn
      have hcount := congrArg UInt64.toNat hw.count
      rw [UInt64.toNat_add, show (1 : UInt64).toNat = 1 from rfl, Nat.mod_eq_of_lt (by omega)] at hcount
      have := ih (hw.encryptor.trans he) (hw.iv.trans hi) (fun f h => hf f (List.mem_cons_of_mem _ h)) h.2 (by omega)
      rw [wireOf] at this ⊢
      rw [List.flatMap_cons, this, protectedRecords, h.1, hcount]
      rfl

/-! ### Assembling -/

theorem Framed.of_write {h : Handshake} {ty : UInt8} {body : Bytes} (hw : wf h) (hb : TlsItem.write h = .ok (handshakeBytes ty body)) (hl : body.length < 2 ^ 24) :
    Framed (handshakeBytes ty body) h := ⟨ty, body, hl, rfl, Handshake.read_write hw hb⟩

theorem framed_finished (vd : Bytes) (h : vd.length = 12) : Framed (finishedBytes vd) (.finished ⟨vd⟩) :=
  Framed.of_write (ty := 20) (body := vd) (show vd.length = 12 from h) (TlsClient.finished_eq vd h).2.1 (by rw [h]; decide)

theorem framed_serverHelloDone : Framed (handshakeBytes 14 []) (.server_hello_done {}) :=
  Framed.of_write (ty := 14) (body := []) trivial write_serverHelloDone (by decide)

/-- More records after the ones that are on their way. -/
theorem Incoming.extend {w w' w'' : TlsWriter} {sent more : List (Record × Bytes)} {l : List Sym} {s : TlsReader} (h : Incoming w sent w' (ofBytes (wireOf more) ++ l) s)
    (hm : w'.Sent more w'') (hs : ∀ rc ∈ more, rc.1.fragment.length ≤ RECORD_MAX_LEN) (hc : w.writeCount.toNat + (sent ++ more).length < 2 ^ 64) :
    Incoming w (sent ++ more) w'' l s := by
  refine ⟨h.ok.trans hm, h.synced, ?_, hc, ?_⟩
  · intro rc hrc
    rcases List.mem_append.mp hrc with h1 | h1
    · exact h.short rc h1
    · exact hs rc h1
  · rw [h.stream, wireOf_append, ofBytes_append, List.append_assoc]

/-- The IV does not matter to records in clear. -/
theorem TlsWriter.Sent.setIv {w w' : TlsWriter} {sent : List (Record × Bytes)} (h : w.Sent sent w') (he : w.encryptor = none) (iv : Option Bytes) :
    TlsWriter.Sent { w with iv := iv } sent { w' with iv := iv } := by
  induction h with
  | nil => exact .nil
  | cons hw _ ih =>
    refine .cons ?_ (ih (hw.encryptor.trans he))
    refine ⟨?_, hw.short, hw.wire, ?_, hw.count, hw.encryptor, rfl, hw.faults⟩
    · have := hw.seal_ok
      simp only [TlsWriter.sealed, he] at this ⊢
      exact this
    · have := hw.calls
      simp only [TlsWriter.logged, he] at this ⊢
      exact this

theorem Incoming.setIv {w w' : TlsWriter} {sent : List (Record × Bytes)} {l : List Sym} {s : TlsReader} (h : Incoming w sent w' l s) (he : w.encryptor = none)
    (iv : Option Bytes) : Incoming { w with iv := iv } sent { w' with iv := iv } l { s with iv := iv } := by
  refine ⟨h.ok.setIv he iv, ⟨h.synced.1, rfl, ?_⟩, h.short, h.count, h.stream⟩
  rcases h.synced.2.2 with ⟨a, b⟩ | ⟨e, d, a, _⟩
  · exact Or.inl ⟨he, b⟩
  · rw [he] at a; cases a

namespace TlsClient

/-- What the server sends, as bytes: the first flight in clear, cut into the fragments `fs1`; ChangeCipherSpec; then the fragments `fs2` protected with the
server's keys. `pre` is what `fs1` carries after the first flight, `post` what is protected. -/
structure Reply (K : Keys) (flight pre post : Bytes) (fs1 fs2 : List Bytes) (l : List Sym) (stream : List Sym) : Prop where
  fits1 : Fits fs1
  fits2 : Fits fs2
  len1 : fs1.length < 2 ^ 63
  len2 : fs2.length < 2 ^ 63
  flat1 : fs1.flatten = flight ++ pre
  flat2 : fs2.flatten = post
  stream : stream = ofBytes (fs1.flatMap (recordBytes 22 3 3) ++ (recordBytes 20 3 3 [1] ++ protectedRecords K.serverKey K.serverIv 22 0 fs2)) ++ l

/-- A run of the handshake against a reply. -/
theorem handshake_forward (m : Mode) (c : TlsClient) (hfr : Fresh c) (hbuf : c.reader.handshakeBuffer = {}) (hrc : c.reader.readCount = 0) (hfa : c.writer.writer.faults = [])
    (cr rest : Bytes) (hrng : c.rng.bytes = cr ++ rest) (hcr : cr.length = 32) (f : ServerFlight) (pub : Bytes) (hfit : FlightFit f pub) (rng' : Rng)
    (hver : f.hello.serverVersion = ⟨3, 3⟩) (hcomp : f.hello.compressionMethod = .null)
    (hkeys : (Ecdhe.computeKeys m f.ske.data).run ⟨rest⟩ = (.ok (f.keyData, f.preMasterSecret), rng'))
    (b1 b2 b3 : Bytes) (hb1 : Framed b1 (.server_hello f.hello)) (hb2 : Framed b2 (.certificate f.certs)) (hb3 : Framed b3 (.server_key_exchange f.ske))
    (vd pre post : Bytes) (hvd : vd.length = 12) (hpp : pre ++ post = finishedBytes vd) (hpost : post ≠ []) (fs1 fs2 : List Bytes) (l : List Sym)
    (hre : Reply (f.keys cr) (b1 ++ (b2 ++ (b3 ++ handshakeBytes 14 []))) pre post fs1 fs2 l c.reader.reader.stream) :
    ∃ c' wEnd, (handshake m).run c = (if vd = f.serverVerify cr pub then .ok () else .err .DecryptError, c') ∧
      c'.writer.writer.wire = c.writer.writer.wire ++ (clientFlight cr pub (f.keys cr) (f.clientVerify cr pub)).flatten ∧
      c'.writer.encryptor = some (.chacha m (f.keys cr).clientKey) ∧ c'.writer.iv = some (f.keys cr).clientIv ∧ c'.writer.writeCount = 1 ∧ c'.writer.writer.faults = [] ∧
      c'.reader.decryptor = some (.chacha m (f.keys cr).serverKey) ∧ c'.reader.iv = some (f.keys cr).serverIv ∧ c'.reader.readCount = UInt64.ofNat fs2.length ∧
      c'.reader.handshakeBuffer = {} ∧ c'.reader.reader.stream = l ∧ c'.buf = c.buf ∧ c'.rng = rng' ∧ Synced wEnd c'.reader ∧
      wEnd.encryptor = some (.chacha m (f.keys cr).serverKey) ∧ wEnd.iv = some (f.keys cr).serverIv ∧ wEnd.writeCount = UInt64.ofNat fs2.length ∧ wEnd.writer.faults = [] := by
  obtain ⟨k1, k2, k3, k4⟩ := hfit.keys_length hcr
  -- the records in clear
  have hw0 : (TlsWriter.new {}).SealsShort := sealsShort_plain rfl
  obtain ⟨wA, sentA, hA, hAm, hAf, hAe, hAi, hAc, hAl⟩ := fragments_sent hre.fits1.le .HandshakeTy (TlsWriter.new {}) hw0 rfl (by have := hre.len1; show 0 + _ < _; omega)
  obtain ⟨hArec, hApay⟩ := hre.fits1.records hAm
  have hAhs : HandshakeRecords sentA := fun rc h => ⟨(hArec rc h).1, (hArec rc h).2.1⟩
  have hAwire := sent_plain hA rfl hAm
  obtain ⟨lA, hlA⟩ : ∃ lA, lA = ofBytes (recordBytes 20 3 3 [1] ++ protectedRecords (f.keys cr).serverKey (f.keys cr).serverIv 22 0 fs2) ++ l := ⟨_, rfl⟩
  have hI0 : Incoming (TlsWriter.new {}) sentA wA lA c.reader := by
    refine ⟨hA, ⟨by rw [hrc]; rfl, by rw [hfr.readerIv]; rfl, Or.inl ⟨rfl, hfr.decryptor⟩⟩, fun rc h => (hArec rc h).2.2, ?_, ?_⟩
    · rw [hAl]; have := hre.len1; show 0 + _ < _; omega
    · rw [hre.stream, hlA, hAwire, ofBytes_append, List.append_assoc]; rfl
  -- the first flight
  obtain ⟨w1, sent1, s1, r1, i1, x1, y1, z1⟩ := hI0.readFramed m hAhs hb1 (bs := b2 ++ (b3 ++ (handshakeBytes 14 [] ++ pre)))
    (by rw [hbuf, hApay, hre.flat1]; simp)
  obtain ⟨w2, sent2, s2, r2, i2, x2, y2, z2⟩ := i1.readFramed m (fun rc h => hAhs rc (x1.mem h)) hb2 y1
  obtain ⟨w3, sent3, s3, r3, i3, x3, y3, z3⟩ := i2.readFramed m (fun rc h => hAhs rc (x1.mem (x2.mem h))) hb3 y2
  obtain ⟨w4, sent4, s4, r4, i4, x4, y4, z4⟩ := i3.readFramed m (fun rc h => hAhs rc (x1.mem (x2.mem (x3.mem h)))) framed_serverHelloDone y3
  have h4hs : HandshakeRecords sent4 := fun rc h => hAhs rc (x1.mem (x2.mem (x3.mem (x4.mem h))))
  have hs4d : s4.decryptor = none := z4.trans (z3.trans (z2.trans (z1.trans hfr.decryptor)))
  have hs4l : sent4.length ≤ fs1.length := by rw [← hAl]; exact (x4.trans (x3.trans (x2.trans x1))).length_le
  -- the client's side
  have hsend : ∃ w', (sendHello m).run c = (.ok (cr, helloMessage cr), { c with rng := ⟨rest⟩, writer := w' }) ∧
      c.writer.Wrote ⟨.HandshakeTy, 3, 3, clientHelloBytes cr⟩ (clientHelloBytes cr) w' := by
    rcases sendHello_cases m c hfr.encryptor hfr.count with ⟨_, h2⟩ | ⟨cr', rest', hr, hl, ⟨w1, h1, h2⟩ | ⟨w1, n, h1, h2, _⟩⟩
    · rw [hrng, List.length_append, hcr] at h2; omega
    · rw [hrng] at hr
      obtain ⟨rfl, rfl⟩ := List.append_inj hr (hcr.trans hl.symm)
      exact ⟨w1, h1, h2⟩
    · exact absurd hfa h2
  obtain ⟨wh, hsh, hwr⟩ := hsend
  have hR : FlightRead m { c with rng := ⟨rest⟩, writer := wh } f s1 s2 s3 s4 rng' := ⟨r1, ⟨hver, hfit.suite, hcomp⟩, r2, r3, hkeys, r4⟩
  rcases sendFinished_cases m cr f pub hcr hfit { c with rng := rng', writer := wh, reader := s4 } (hwr.encryptor.trans hfr.encryptor) (hwr.iv.trans hfr.writerIv)
      (hR.same.2.trans hfr.readerIv) (by show wh.writeCount.toNat ≤ 1; rw [hwr.count, hfr.count]; decide) with ⟨w', g1, g2, g3, g4, g5, g6⟩ | ⟨c', n, g1, g2, _⟩
  rotate_left
  · exact absurd (hwr.faults hfa) g2
  -- ChangeCipherSpec
  have hw4e : w4.encryptor = none := by
    rcases i4.synced.2.2 with ⟨a, _⟩ | ⟨e, d, _, b, _⟩
    · exact a
    · rw [hs4d] at b; cases b
  have hw4c : w4.writeCount.toNat + sent4.length = fs1.length := by
    have h1 := i4.ok.same.2.2.1
    have h2 := hA.same.2.2.1
    have h3 := i4.count
    have hcc := congrArg UInt64.toNat h1
    rw [UInt64.toNat_add, UInt64.toNat_ofNat', hAc] at hcc
    have h0 : (TlsWriter.new {}).writeCount.toNat = 0 := rfl
    have hl1 := hre.len1
    omega
  have i4' := i4.setIv hw4e (some (f.keys cr).serverIv)
  have hccs : ∃ wC, TlsWriter.Sent { wA with iv := some (f.keys cr).serverIv } [(⟨.ChangeCipherSpecTy, 3, 3, [1]⟩, [1])] wC := by
    obtain ⟨wC, sC, hC, hCm, _, _, _, _, hCl⟩ := fragments_sent (fs := [[1]]) (by intro x hx; rw [List.mem_singleton.mp hx]; decide) .ChangeCipherSpecTy
      { wA with iv := some (f.keys cr).serverIv } (sealsShort_plain hAe) hAf (by
        have := hre.len1
        show wA.writeCount.toNat + 1 < _
        rw [hAc]; show 0 + _ + 1 < _; omega)
    cases hC with
    | nil => cases hCl
    | @cons _ t _ r cc recs hw hrec =>
      have hnil : recs = [] := by
        have := hCl
        simp at this
        exact this
      subst hnil
      simp only [List.map_cons, TlsWriter.recordsOf, List.cons.injEq] at hCm
      have hse := hw.seal_ok
      rw [sealed_plain (by exact hAe), hCm.1] at hse
      cases hse
      rw [hCm.1] at hw
      cases hrec
      exact ⟨_, .cons hw .nil⟩
  obtain ⟨wC, hC⟩ := hccs
  obtain ⟨lB, hlB⟩ : ∃ lB, lB = ofBytes (protectedRecords (f.keys cr).serverKey (f.keys cr).serverIv 22 0 fs2) ++ l := ⟨_, rfl⟩
  have i5 : Incoming { w4 with iv := some (f.keys cr).serverIv } (sent4 ++ [(⟨.ChangeCipherSpecTy, 3, 3, [1]⟩, [1])]) wC lB { s4 with iv := some (f.keys cr).serverIv } := by
    refine Incoming.extend (w' := { wA with iv := some (f.keys cr).serverIv }) ?_ hC ?_ ?_
    · have : lA = ofBytes (wireOf [((⟨.ChangeCipherSpecTy, 3, 3, [1]⟩ : Record), ([1] : Bytes))]) ++ lB := by
        rw [hlA, hlB, ofBytes_append, List.append_assoc]
        rfl
      rw [← this]
      exact i4'
    · intro rc h; rw [List.mem_singleton.mp h]; decide
    · show w4.writeCount.toNat + _ < _
      have := hre.len1
      rw [List.length_append, List.length_singleton]
      omega
  have hpart : ∀ x t, x ++ t = pre → HandshakeBuffer.getMessage.run ⟨x⟩ = (.ok none, ⟨x⟩) := by
    intro x t hx
    refine (framed_finished vd hvd).part (t := t ++ post) ?_ ?_
    · rw [← hpp, ← hx, List.append_assoc]
    · intro h; exact hpost (List.append_eq_nil_iff.mp h).2
  obtain ⟨s5, r5, i6, y5, z5⟩ := i5.readChange m h4hs (by
    intro x t hx
    refine hpart x t (hx.trans ?_)
    exact y4)
  have y5 : s5.handshakeBuffer.buf = pre := y5.trans y4
  have hs5 : s5.reader.stream = lB := by rw [i6.stream]; rfl
  have hs5iv : s5.iv = some (f.keys cr).serverIv := (readMessage_same r5).2
  -- the protected records
  obtain ⟨wK, hwK⟩ : ∃ wK : TlsWriter, wK = { writer := {}, encryptor := some (.chacha m (f.keys cr).serverKey), iv := some (f.keys cr).serverIv } := ⟨_, rfl⟩
  have hKs : Synced wK (keyed m s5 (f.keys cr).serverKey) := by
    rw [hwK]
    exact ⟨rfl, hs5iv, Or.inr ⟨_, _, rfl, rfl, matching_chacha m m _ k2⟩⟩
  obtain ⟨wE, sentB, hB, hBm, hBf, hBe, hBi, hBc, hBl⟩ := fragments_sent hre.fits2.le .HandshakeTy wK hKs.sealsShort (by rw [hwK]) (by rw [hwK]; have := hre.len2; show 0 + _ < _; omega)
  obtain ⟨hBrec, hBpay⟩ := hre.fits2.records hBm
  have hBwire := sent_protected (m := m) k2 k4 hB (by rw [hwK]) (by rw [hwK]) hre.fits2.le hBm (by rw [hwK]; have := hre.len2; show 0 + _ < _; omega)
  have hBhs : HandshakeRecords sentB := fun rc h => ⟨(hBrec rc h).1, (hBrec rc h).2.1⟩
  have i7 : Incoming wK sentB wE l (keyed m s5 (f.keys cr).serverKey) := by
    refine ⟨hB, hKs, fun rc h => (hBrec rc h).2.2, ?_, ?_⟩
    · rw [hBl, hwK]; have := hre.len2; show 0 + _ < _; omega
    · show s5.reader.stream = _
      rw [hs5, hlB, hBwire, hwK]
      rfl
  obtain ⟨wN, sentN, s6, r6, i8, x6, y6, z6⟩ := i7.readFramed m hBhs (framed_finished vd hvd) (bs := []) (by
    rw [show (keyed m s5 (f.keys cr).serverKey).handshakeBuffer.buf = s5.handshakeBuffer.buf from rfl, y5, hBpay, hre.flat2, hpp, List.append_nil])
  obtain ⟨hbufN, hpayN⟩ := List.append_eq_nil_iff.mp y6
  have hsentN : sentN = [] := by
    cases sentN with
    | nil => rfl
    | cons rc _ =>
      rw [payload, List.flatMap_cons] at hpayN
      exact absurd (List.append_eq_nil_iff.mp hpayN).1 (hBhs rc (x6.mem (by simp))).2
  subst hsentN
  have hwN : wN = wE := by have := i8.ok; cases this; rfl
  subst hwN
  have hfin := readFinished_eq hfit hcr (m := m) (c := { c with writer := w', reader := { s4 with iv := some (f.keys cr).serverIv }, rng := rng' }) hs4d r5 r6
  have hwEcount : wN.writeCount = UInt64.ofNat fs2.length := by
    have := hB.same.2.2.1
    rw [this, hBl, hwK]
    exact UInt64.zero_add _
  have hsame6 := readMessage_same r6
  refine ⟨{ c with writer := w', reader := s6, rng := rng' }, wN, ?_, ?_, g3, g4, g5, g6 (hwr.faults hfa), hsame6.1, hsame6.2.trans hs5iv, ?_, ?_, ?_, rfl, rfl, i8.synced, ?_, ?_, hwEcount, hBf⟩
  · rw [handshake, St.bind_of_ok hsh]
    dsimp only
    rw [St.bind_of_ok (readFlight_ok hR)]
    rw [St.bind_of_ok g1]
    exact hfin
  · show w'.writer.wire = _
    rw [g2, clientFlight, List.flatten_cons, ← List.append_assoc]
    congr 1
    exact hwr.wire
  · exact i8.synced.1.trans hwEcount
  · show s6.handshakeBuffer = _
    cases hq : s6.handshakeBuffer with
    | mk b =>
      rw [hq] at hbufN
      exact congrArg HandshakeBuffer.mk hbufN
  · show s6.reader.stream = l
    rw [i8.stream]; rfl
  · rw [hBe, hwK]
  · rw [hBi, hwK]

end TlsClient

end Husk
