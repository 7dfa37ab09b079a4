import Verif.Proofs.Client
/-! Messages of a peer on their way: handshake messages are reassembled from records cut anywhere. -/

namespace Husk

open Spec TlsReader

/-- The reader `s` has the records `sent` of the peer (going from state `w` to `w'`) before it, then `l`. -/
structure Incoming (w : TlsWriter) (sent : List (Record × Bytes)) (w' : TlsWriter) (l : List Sym) (s : TlsReader) : Prop where
  ok : w.Sent sent w'
  synced : Synced w s
  short : ∀ rc ∈ sent, rc.1.fragment.length ≤ RECORD_MAX_LEN
  count : w.writeCount.toNat + sent.length < 2 ^ 64
  stream : s.reader.stream = ofBytes (wireOf sent) ++ l

theorem Incoming.record (m : Mode) {w w' : TlsWriter} {rc : Record × Bytes} {sent : List (Record × Bytes)} {l : List Sym} {s : TlsReader}
    (h : Incoming w (rc :: sent) w' l s) : ∃ w1 r', (readRecord m).run s = (.ok rc.1, { s with reader := r', readCount := s.readCount + 1 }) ∧
      Incoming w1 sent w' l { s with reader := r', readCount := s.readCount + 1 } := by
  obtain ⟨hsent, hsy, hsh, hc, hst⟩ := h
  cases hsent with
  | @cons _ w1 _ rec ct _ hw hrest =>
    simp only [List.length_cons] at hc
    rw [wireOf, List.flatMap_cons, ofBytes_append, List.append_assoc] at hst
    obtain ⟨r', h1, h2, h3⟩ := readRecord_wrote m hsy hw (hsh (rec, ct) (by simp)) (by omega) hst
    refine ⟨w1, r', h1, hrest, h3, fun rc h => hsh rc (List.mem_cons_of_mem _ h), ?_, h2⟩
    have h1 : (1 : UInt64).toNat = 1 := rfl
    rw [hw.count, UInt64.toNat_add, h1]; omega

theorem Incoming.buffer {w w' : TlsWriter} {sent : List (Record × Bytes)} {l : List Sym} {s : TlsReader} (h : Incoming w sent w' l s) (b : HandshakeBuffer) :
    Incoming w sent w' l { s with handshakeBuffer := b } := ⟨h.ok, h.synced, h.short, h.count, h.stream⟩

/-- Records of a handshake flight. -/
def HandshakeRecords (sent : List (Record × Bytes)) : Prop := ∀ rc ∈ sent, rc.1.contentType = .HandshakeTy ∧ rc.1.fragment ≠ []

/-- The payload of the records. -/
def payload (sent : List (Record × Bytes)) : Bytes := sent.flatMap (·.1.fragment)

theorem messageStep_handshake {m : Mode} {s s1 : TlsReader} {rec : Record} {o : Option Handshake} {b : HandshakeBuffer} (h : (readRecord m).run s = (.ok rec, s1))
    (hty : rec.contentType = .HandshakeTy) (hne : rec.fragment ≠ []) (hg : HandshakeBuffer.getMessage.run ⟨s1.handshakeBuffer.buf ++ rec.fragment⟩ = (.ok o, b)) :
    (messageStep m).run s = (.ok (o.map .HandshakeMessage), { s1 with handshakeBuffer := b }) := by
  rw [messageStep, St.bind_of_ok h]
  simp only [hty]
  rw [if_neg (by simpa using hne)]
  have h1 : (onBuffer (HandshakeBuffer.addRecord rec.fragment)).run s1 = (.ok (), { s1 with handshakeBuffer := ⟨s1.handshakeBuffer.buf ++ rec.fragment⟩ }) := rfl
  have h2 : (onBuffer HandshakeBuffer.getMessage).run { s1 with handshakeBuffer := ⟨s1.handshakeBuffer.buf ++ rec.fragment⟩ } = (.ok o, { s1 with handshakeBuffer := b }) := by
    simp only [onBuffer, St.zoom_run, hg]
  rw [St.bind_of_ok h1, St.bind_of_ok h2]
  cases o <;> rfl

theorem Incoming.messageLoop (m : Mode) {h : Handshake} {hs : List Handshake} {b bs : Bytes} (hse : Sendable h) (hwr : TlsItem.write h = .ok b) (henc : Encodes hs bs)
    {w' : TlsWriter} {l : List Sym} (sent : List (Record × Bytes)) (fuel : Nat) :
    ∀ {w : TlsWriter} {s : TlsReader}, Incoming w sent w' l s → HandshakeRecords sent → s.handshakeBuffer.buf ++ payload sent = b ++ bs →
      s.handshakeBuffer.buf.length < b.length → countBytes s.reader.stream < fuel →
    ∃ w1 sent1 s1, (messageLoop m fuel).run s = (.ok (.HandshakeMessage h), s1) ∧ Incoming w1 sent1 w' l s1 ∧ sent1 <:+ sent ∧
      s1.handshakeBuffer.buf ++ payload sent1 = bs ∧ s1.decryptor = s.decryptor := by
  induction sent generalizing fuel with
  | nil =>
    intro w s hi hh hp hb hf
    have := congrArg List.length hp
    simp [payload] at this
    omega
  | cons rc sent ih =>
    intro w s hi hh hp hb hf
    cases fuel with
    | zero => omega
    | succ fuel =>
      obtain ⟨w1, r', h1, h2⟩ := hi.record m
      have hcons := readRecord_consumes h1
      obtain ⟨hty, hne⟩ := hh rc (by simp)
      rw [payload, List.flatMap_cons, ← List.append_assoc] at hp
      rcases Codec.split_front hp with ⟨x, hx1, hx2⟩ | ⟨t, ht, hx⟩
      · have hg : HandshakeBuffer.getMessage.run ⟨s.handshakeBuffer.buf ++ rc.1.fragment⟩ = (.ok (some h), ⟨x⟩) := by
          rw [hx1]; exact HandshakeBuffer.getMessage_front hse hwr
        refine ⟨w1, sent, _, ?_, h2.buffer ⟨x⟩, List.suffix_cons _ _, hx2, rfl⟩
        rw [Husk.TlsReader.messageLoop, St.bind_of_ok (messageStep_handshake h1 hty hne hg)]
        rfl
      · have hg : HandshakeBuffer.getMessage.run ⟨s.handshakeBuffer.buf ++ rc.1.fragment⟩ = (.ok none, ⟨s.handshakeBuffer.buf ++ rc.1.fragment⟩) :=
          HandshakeBuffer.getMessage_prefix hse hwr hx ht
        obtain ⟨w2, sent1, s1, g1, g2, g3, g4, g5⟩ := ih fuel (h2.buffer ⟨s.handshakeBuffer.buf ++ rc.1.fragment⟩) (fun rc h => hh rc (List.mem_cons_of_mem _ h)) hp
          (by
            have h1 := congrArg List.length hx
            have h2 := List.length_pos_iff.mpr ht
            rw [List.length_append] at h1
            show (s.handshakeBuffer.buf ++ rc.1.fragment).length < b.length
            omega)
          (by
            show countBytes r'.stream < fuel
            have : countBytes r'.stream + 5 ≤ countBytes s.reader.stream := hcons
            omega)
        refine ⟨w2, sent1, s1, ?_, g2, g3.trans (List.suffix_cons _ _), g4, g5⟩
        rw [Husk.TlsReader.messageLoop, St.bind_of_ok (messageStep_handshake h1 hty hne hg)]
        exact g1

/-- The first of the messages that are in the buffer or on their way is delivered, whatever the cuts. -/
theorem Incoming.readMessage (m : Mode) {h : Handshake} {hs : List Handshake} {w w' : TlsWriter} {sent : List (Record × Bytes)} {l : List Sym} {s : TlsReader}
    (hi : Incoming w sent w' l s) (hh : HandshakeRecords sent) (henc : Encodes (h :: hs) (s.handshakeBuffer.buf ++ payload sent)) :
    ∃ w1 sent1 s1, (readMessage m).run s = (.ok (.HandshakeMessage h), s1) ∧ Incoming w1 sent1 w' l s1 ∧ sent1 <:+ sent ∧
      Encodes hs (s1.handshakeBuffer.buf ++ payload sent1) ∧ s1.decryptor = s.decryptor := by
  generalize hbs : s.handshakeBuffer.buf ++ payload sent = bs0 at henc
  cases henc with
  | @cons _ _ b bs hse hwr henc =>
    rcases Codec.split_front hbs with ⟨x, hx1, hx2⟩ | ⟨t, ht, hx⟩
    · have hg : HandshakeBuffer.getMessage.run s.handshakeBuffer = (.ok (some h), ⟨x⟩) := by
        have : s.handshakeBuffer = ⟨b ++ x⟩ := by cases hq : s.handshakeBuffer; rw [hq] at hx1; rw [← hx1]
        rw [this]; exact HandshakeBuffer.getMessage_front hse hwr
      have h1 : (onBuffer HandshakeBuffer.getMessage).run s = (.ok (some h), { s with handshakeBuffer := ⟨x⟩ }) := by
        simp only [onBuffer, St.zoom_run, hg]
      refine ⟨w, sent, { s with handshakeBuffer := ⟨x⟩ }, ?_, hi.buffer _, List.suffix_refl _, ?_, rfl⟩
      · rw [Husk.TlsReader.readMessage, St.bind_of_ok h1]; rfl
      · show Encodes hs (x ++ payload sent)
        rw [hx2]; exact henc
    · have hg : HandshakeBuffer.getMessage.run s.handshakeBuffer = (.ok none, s.handshakeBuffer) :=
        HandshakeBuffer.getMessage_prefix (buf := s.handshakeBuffer.buf) hse hwr hx ht
      have h1 : (onBuffer HandshakeBuffer.getMessage).run s = (.ok none, s) := by
        simp only [onBuffer, St.zoom_run, hg]
      obtain ⟨w1, sent1, s1, g1, g2, g3, g4, g5⟩ := Incoming.messageLoop m hse hwr henc sent (s.reader.bytes + 1) hi hh hbs
        (by
          have h1 := congrArg List.length hx
          have h2 := List.length_pos_iff.mpr ht
          rw [List.length_append] at h1
          omega) (by rw [Reader.bytes_eq]; omega)
      refine ⟨w1, sent1, s1, ?_, g2, g3, by rw [g4]; exact henc, g5⟩
      rw [Husk.TlsReader.readMessage, St.bind_of_ok h1]
      exact g1

/-- A write by the peer that goes through. -/
theorem peer_writes (m : Mode) (ty : ContentType) (data : Bytes) (w : TlsWriter) (hs : w.SealsShort) (hf : w.writer.faults = [])
    (hn : w.writeCount.toNat + (data.length + 16383) / 16384 < 2 ^ 64) :
    ∃ w' sent, (TlsWriter.writeData m ty data).run w = (.ok (), w') ∧ w.Sent sent w' ∧ sent.map (·.1) = TlsWriter.recordsOf ty (chunks RECORD_MAX_LEN data) ∧
      w'.SealsShort ∧ w'.writer.faults = [] ∧ w'.encryptor = w.encryptor ∧ w'.writeCount.toNat = w.writeCount.toNat + (data.length + 16383) / 16384 ∧
      sent.length = (data.length + 16383) / 16384 := by
  have hcount : (chunks RECORD_MAX_LEN data).length = (data.length + 16383) / 16384 := chunks_count (by decide) data
  obtain ⟨w', hw⟩ := TlsWriter.writeChunks_ok (m := m) (ty := ty) (TlsWriter.chunk_bound data) hs hf (by rw [hcount]; exact hn)
  obtain ⟨sent, hsent, hmap⟩ := TlsWriter.writeData_inv hw
  have hlen : sent.length = (data.length + 16383) / 16384 := by
    rw [← hcount, ← List.length_map (f := Prod.fst), hmap]; simp [TlsWriter.recordsOf]
  obtain ⟨e1, e2, e3, e4⟩ := hsent.same
  refine ⟨w', sent, hw, hsent, hmap, ?_, e4 hf, e1, ?_, hlen⟩
  · intro e he; exact hs e (by rw [← e1]; exact he)
  · rw [e3, UInt64.toNat_add, hlen, UInt64.toNat_ofNat']
    omega

theorem records_short {ty : ContentType} {data : Bytes} {sent : List (Record × Bytes)} (hmap : sent.map (·.1) = TlsWriter.recordsOf ty (chunks RECORD_MAX_LEN data)) :
    ∀ rc ∈ sent, rc.1.contentType = ty ∧ rc.1.fragment.length ≤ RECORD_MAX_LEN ∧ rc.1.fragment ≠ [] := by
  intro rc hrc
  have : rc.1 ∈ TlsWriter.recordsOf ty (chunks RECORD_MAX_LEN data) := by rw [← hmap]; exact List.mem_map.mpr ⟨rc, hrc, rfl⟩
  obtain ⟨f, hf, he⟩ := List.mem_map.mp this
  rw [← he]
  exact ⟨rfl, TlsWriter.chunk_bound data f hf, chunks_ne_nil (by decide) data f hf⟩

theorem records_payload {ty : ContentType} {data : Bytes} {sent : List (Record × Bytes)} (hmap : sent.map (·.1) = TlsWriter.recordsOf ty (chunks RECORD_MAX_LEN data)) :
    payload sent = data := by
  have : payload sent = (sent.map (·.1)).flatMap (·.fragment) := by rw [payload, List.flatMap_map]
  rw [this, hmap, TlsWriter.recordsOf, List.flatMap_map]
  show ((chunks RECORD_MAX_LEN data).map fun a => a).flatten = data
  rw [List.map_id']
  exact chunks_flatten (by decide) data

theorem wireOf_append (a b : List (Record × Bytes)) : wireOf (a ++ b) = wireOf a ++ wireOf b := by simp [wireOf]

end Husk
