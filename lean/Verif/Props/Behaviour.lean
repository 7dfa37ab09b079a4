import Verif.Props.Reads
import Verif.Props.KeystreamReuse
/-! C109: what all calls of a connection return and send, over any transport, as a relation that has exactly one value. -/

namespace Husk

open Item Spec TlsReader TlsClient

/-! ### Specification -/

/-- The transport is given a buffer: the bytes that get through, whether it took all of it, and its faults to come. -/
def sendPiece (p : Bytes) : List (Option Nat) → Bytes × Bool × List (Option Nat)
  | [] => (p, true, [])
  | none :: fs => (p, true, fs)
  | some k :: fs => (p.take k, false, fs)

/-- Several buffers, up to the first that is not taken. -/
def sendPieces : List Bytes → List (Option Nat) → Bytes × Bool × List (Option Nat)
  | [], fs => ([], true, fs)
  | p :: ps, fs =>
    match sendPiece p fs with
    | (b, true, fs) => (b ++ (sendPieces ps fs).1, (sendPieces ps fs).2)
    | (b, false, fs) => (b, false, fs)

/-- A protected record is passed on in five buffers: type, version (two), length, fragment. -/
def recordPieces (key iv : Bytes) (k : Nat) (ty : UInt8) (fragment : Bytes) : List Bytes :=
  [[ty], [3], [3], beBytes 2 (fragment.length + 16), Aead.sealMsg key (recordNonce iv k) (recordAad k ty 3 3 fragment.length) fragment]

/-- Records with consecutive numbers, up to the first that fails; its number is not used up. Also the next number. -/
def sendItems (key iv : Bytes) : Nat → List (UInt8 × Bytes) → List (Option Nat) → Bytes × Bool × Nat × List (Option Nat)
  | k, [], fs => ([], true, k, fs)
  | k, r :: rs, fs =>
    match sendPieces (recordPieces key iv k r.1 r.2) fs with
    | (b, true, fs) => (b ++ (sendItems key iv (k + 1) rs fs).1, (sendItems key iv (k + 1) rs fs).2)
    | (b, false, fs) => (b, false, k, fs)

/-- What calls return, and what they send: `data`, `e` and `s` are as in `HandsOut`; the next record to be written has number `k`, and the transport will fail as `fs` says. The history
ends with a panic. -/
inductive Behaves (key iv : Bytes) : Bytes → Halt → TlsReader → Nat → List (Option Nat) → List Call → List CallResult → Bytes → Prop
  | nil {data e s k fs} : Behaves key iv data e s k fs [] [] []
  | readFull {data e s k fs len calls rs out} : len ≤ data.length → Behaves key iv (data.drop len) e s k fs calls rs out →
      Behaves key iv data e s k fs (.read len :: calls) (.read (.ok (data.take len)) :: rs) out
  | readShort {data data' err e' s s' k fs len calls rs out} : data.length < len → Arrives s data' e' s' → Behaves key iv data' e' s' k fs calls rs out →
      Behaves key iv data (.failed err) s k fs (.read len :: calls) (.read (.ok data) :: rs) out
  | readCrash {data s k fs len calls} : data.length < len → Behaves key iv data .crash s k fs (.read len :: calls) [.read .panic] []
  | flush {data e s k fs calls rs out} : Behaves key iv data e s k fs calls rs out → Behaves key iv data e s k fs (.flush :: calls) (.done (.ok ()) :: rs) out
  | write {data e s k fs buf b k' fs' calls rs out} : sendItems key iv k ((chunks 16384 buf).map fun f => (23, f)) fs = (b, true, k', fs') → Behaves key iv data e s k' fs' calls rs out →
      Behaves key iv data e s k fs (.write buf :: calls) (.write (.ok buf.length) :: rs) (b ++ out)
  | writeFails {data e s k fs buf b k' fs' calls rs out} : sendItems key iv k ((chunks 16384 buf).map fun f => (23, f)) fs = (b, false, k', fs') →
      Behaves key iv data e s k' fs' calls rs out → Behaves key iv data e s k fs (.write buf :: calls) (.write (.err .IoFailure) :: rs) (b ++ out)
  | close {data e s k fs b k' fs' calls rs out} : sendItems key iv k [(21, [2, 0])] fs = (b, true, k', fs') → Behaves key iv data e s k' fs' calls rs out →
      Behaves key iv data e s k fs (.close :: calls) (.done (.ok ()) :: rs) (b ++ out)
  | closeFails {data e s k fs b k' fs' calls rs out} : sendItems key iv k [(21, [2, 0])] fs = (b, false, k', fs') → Behaves key iv data e s k' fs' calls rs out →
      Behaves key iv data e s k fs (.close :: calls) (.done (.err .IoFailure) :: rs) (b ++ out)

/-- The calls of a program on its connection; a panic ends it. -/
def runSession (m : Mode) : List Call → TlsClient → List CallResult × TlsClient
  | [], c => ([], c)
  | call :: calls, c =>
    match call.run m c with
    | (.read .panic, c) => ([.read .panic], c)
    | (.write .panic, c) => ([.write .panic], c)
    | (.done .panic, c) => ([.done .panic], c)
    | (r, c) => (r :: (runSession m calls c).1, (runSession m calls c).2)

/-! ### Proof: writing -/

theorem writeAll_piece (b : Bytes) (hb : b ≠ []) (w : Writer) :
    (Writer.writeAll b).run w = (if (sendPiece b w.faults).2.1 then .ok () else .err .IoFailure, ⟨w.wire ++ (sendPiece b w.faults).1, (sendPiece b w.faults).2.2⟩) := by
  obtain ⟨wire, faults⟩ := w
  simp only [Writer.writeAll, if_neg hb]
  cases faults with
  | nil => rfl
  | cons f fs => cases f <;> rfl

/-- The buffers of a record, one after the other, and then the counter. -/
def emitPieces (m : Mode) : List Bytes → St TlsWriter Unit
  | [] => TlsWriter.bump m
  | p :: ps => TlsWriter.io (Writer.writeAll p) >>= fun _ => emitPieces m ps

theorem emitPieces_run (m : Mode) (ps : List Bytes) (hps : ∀ p ∈ ps, p ≠ []) (w : TlsWriter) {b : Bytes} {ok : Bool} {fs : List (Option Nat)} (h : sendPieces ps w.writer.faults = (b, ok, fs)) :
    (emitPieces m ps).run w = if ok then (TlsWriter.bump m).run { w with writer := ⟨w.writer.wire ++ b, fs⟩ } else (.err .IoFailure, { w with writer := ⟨w.writer.wire ++ b, fs⟩ }) := by
  induction ps generalizing w b with
  | nil =>
    simp only [sendPieces, Prod.mk.injEq] at h
    obtain ⟨rfl, rfl, rfl⟩ := h
    simp [emitPieces]
  | cons p ps ih =>
    have h1 := writeAll_piece p (hps p (by simp)) w.writer
    rw [emitPieces]
    simp only [sendPieces] at h
    rcases hsp : sendPiece p w.writer.faults with ⟨b1, ok1, fs1⟩
    rw [hsp] at h1 h
    cases ok1 with
    | true =>
      simp only [Prod.mk.injEq] at h
      obtain ⟨rfl, h⟩ := h
      rw [St.bind_of_ok (TlsWriter.io_ok h1), ih (fun q hq => hps q (List.mem_cons_of_mem _ hq)) { w with writer := ⟨w.writer.wire ++ b1, fs1⟩ } (b := (sendPieces ps fs1).1) (by simp only; rw [← h])]
      simp only [List.append_assoc]
    | false =>
      simp only [Prod.mk.injEq] at h
      obtain ⟨rfl, rfl, rfl⟩ := h
      rw [St.bind_of_err (TlsWriter.io_err h1)]
      simp

theorem sealMsg_len (key nonce aad p : Bytes) : (Spec.Aead.sealMsg key nonce aad p).length = p.length + 16 := by
  have ht : ∀ c, (Spec.Aead.tag key nonce aad c).length = 16 := fun _ => Spec.Poly1305.mac_length _ _ _
  have he : (Spec.ChaCha20.encrypt key 1 nonce p).length = p.length := by simp [Spec.ChaCha20.encrypt]
  rw [Spec.Aead.sealMsg, List.length_append, ht, he]

theorem writeRecord_sends {m : Mode} {key iv : Bytes} {k : Nat} {w : TlsWriter} (hk : key.length = 32) (hi : iv.length = 12) (hw : Keyed m key iv k w) (hn : k + 1 < 2 ^ 64)
    (ty : ContentType) (f : Bytes) (hf : f.length ≤ RECORD_MAX_LEN) {b : Bytes} {ok : Bool} {fs : List (Option Nat)} (h : sendPieces (recordPieces key iv k ty.toU8 f) w.writer.faults = (b, ok, fs)) :
    ∃ w', (TlsWriter.writeRecord m ⟨ty, TLS_VERSION.1, TLS_VERSION.2, f⟩).run w = (if ok then .ok () else .err .IoFailure, w') ∧ w'.writer = ⟨w.writer.wire ++ b, fs⟩ ∧
      Keyed m key iv (if ok then k + 1 else k) w' := by
  have hs := sealed_chacha hw.encryptor hk hw.iv hi ty f hf
  rw [hw.count] at hs
  have hlen : (Spec.Aead.sealMsg key (recordNonce iv k) (recordAad k ty.toU8 3 3 f.length) f).length = f.length + 16 := sealMsg_len _ _ _ _
  have hp : recordPieces key iv k ty.toU8 f = [[ty.toU8], [3], [3], beBytes 2 (Spec.Aead.sealMsg key (recordNonce iv k) (recordAad k ty.toU8 3 3 f.length) f).length,
      Spec.Aead.sealMsg key (recordNonce iv k) (recordAad k ty.toU8 3 3 f.length) f] := by rw [hlen]; rfl
  rw [hp] at h
  generalize Spec.Aead.sealMsg key (recordNonce iv k) (recordAad k ty.toU8 3 3 f.length) f = c at hs hlen h
  have hE : ENC_RECORD_MAX_LEN = 18432 := rfl
  have hR : RECORD_MAX_LEN = 16384 := rfl
  have hcl : c.length ≤ ENC_RECORD_MAX_LEN := by omega
  have hc0 : c ≠ [] := by intro h; rw [h] at hlen; simp at hlen
  have e : TlsWriter.emit m ⟨ty, 3, 3, f⟩ c = emitPieces m [[ty.toU8], [3], [3], beBytes 2 c.length, c] := by
    simp only [emitPieces]
    rw [← Writer.transmute_be16 c.length (by omega)]
    rw [show ([ty.toU8] : Bytes) = Util.transmute 1 ty.toU8.toNat from (Writer.transmute_u8 _).symm, show ([3] : Bytes) = Util.transmute 1 (3 : UInt8).toNat from (Writer.transmute_u8 3).symm]
    rfl
  have hne : ∀ p ∈ ([[ty.toU8], [3], [3], beBytes 2 c.length, c] : List Bytes), p ≠ [] := by
    intro p hp
    simp only [List.mem_cons, List.not_mem_nil, or_false] at hp
    rcases hp with rfl | rfl | rfl | rfl | rfl
    · simp
    · simp
    · simp
    · intro h; have := congrArg List.length h; simp at this
    · exact hc0
  generalize [[ty.toU8], [3], [3], beBytes 2 c.length, c] = ps at e hne h
  obtain ⟨l1, l2, l3, l4⟩ := TlsWriter.logged_same w ⟨ty, 3, 3, f⟩ c
  have hv : (⟨ty, TLS_VERSION.1, TLS_VERSION.2, f⟩ : Record) = ⟨ty, 3, 3, f⟩ := rfl
  rw [hv, TlsWriter.writeRecord_run, hs]
  simp only
  rw [if_neg (by omega), e, emitPieces_run m ps hne _ (by rw [l1, h]), l1]
  have h1 : (1 : UInt64).toNat = 1 := rfl
  cases ok with
  | true =>
    rw [if_pos rfl, TlsWriter.bump_ok _ _ (by simp only [l3, hw.count]; exact hn)]
    refine ⟨{ w.logged ⟨ty, 3, 3, f⟩ c with writer := ⟨w.writer.wire ++ b, fs⟩, writeCount := (w.logged ⟨ty, 3, 3, f⟩ c).writeCount + 1 }, rfl, rfl, l2.trans hw.encryptor, l4.trans hw.iv, ?_⟩
    simp only [l3, UInt64.toNat_add, hw.count, h1, if_true]; omega
  | false =>
    refine ⟨{ w.logged ⟨ty, 3, 3, f⟩ c with writer := ⟨w.writer.wire ++ b, fs⟩ }, by simp, rfl, l2.trans hw.encryptor, l4.trans hw.iv, ?_⟩
    simp only [l3, hw.count]; rfl

theorem writeChunks_sends {m : Mode} {key iv : Bytes} (hk : key.length = 32) (hi : iv.length = 12) (ty : ContentType) (cs : List Bytes) {k : Nat} {w : TlsWriter}
    (hw : Keyed m key iv k w) (hn : k + cs.length < 2 ^ 64) (hcs : ∀ c ∈ cs, c.length ≤ RECORD_MAX_LEN) {b : Bytes} {ok : Bool} {k' : Nat} {fs' : List (Option Nat)}
    (h : sendItems key iv k (cs.map fun f => (ty.toU8, f)) w.writer.faults = (b, ok, k', fs')) :
    ∃ w', (TlsWriter.writeChunks m ty cs).run w = (if ok then .ok () else .err .IoFailure, w') ∧ w'.writer = ⟨w.writer.wire ++ b, fs'⟩ ∧ Keyed m key iv k' w' := by
  induction cs generalizing k w b with
  | nil =>
    simp only [List.map_nil, sendItems, Prod.mk.injEq] at h
    obtain ⟨rfl, rfl, rfl, rfl⟩ := h
    exact ⟨w, rfl, by simp, hw⟩
  | cons c cs ih =>
    have hr : Record.new ty TLS_VERSION.1 TLS_VERSION.2 c = .ok ⟨ty, TLS_VERSION.1, TLS_VERSION.2, c⟩ := Record.new_ok _ _ _ _ (hcs c (by simp))
    rw [TlsWriter.writeChunks, St.bind_of_ok (a := ⟨ty, TLS_VERSION.1, TLS_VERSION.2, c⟩) (s' := w) (by rw [hr]; rfl)]
    simp only [List.length_cons] at hn
    simp only [List.map_cons, sendItems] at h
    rcases hsp : sendPieces (recordPieces key iv k ty.toU8 c) w.writer.faults with ⟨b1, ok1, fs1⟩
    obtain ⟨w1, g1, g2, g3⟩ := writeRecord_sends hk hi hw (by omega) ty c (hcs c (by simp)) hsp
    rw [hsp] at h
    cases ok1 with
    | true =>
      simp only [if_true] at g1 g3
      simp only [Prod.mk.injEq] at h
      obtain ⟨rfl, h⟩ := h
      obtain ⟨w2, j1, j2, j3⟩ := ih (b := (sendItems key iv (k + 1) (cs.map fun f => (ty.toU8, f)) fs1).1) g3 (by omega) (fun c hc => hcs c (List.mem_cons_of_mem _ hc)) (by rw [g2, ← h])
      rw [St.bind_of_ok g1]
      exact ⟨w2, j1, by rw [j2, g2]; simp only [List.append_assoc], j3⟩
    | false =>
      simp only [Prod.mk.injEq] at h
      obtain ⟨rfl, rfl, rfl, rfl⟩ := h
      rw [St.bind_of_err g1]
      exact ⟨w1, rfl, g2, g3⟩

/-! ### Proof: one call -/

/-- The client after the calls so far. -/
structure At (m : Mode) (key iv : Bytes) (data : Bytes) (e : Halt) (s' : TlsReader) (k : Nat) (fs : List (Option Nat)) (c : TlsClient) : Prop where
  there : There c data e s'
  keyed : Keyed m key iv k c.writer
  faults : c.writer.writer.faults = fs

theorem read_writer (m : Mode) (len : Nat) (c : TlsClient) : ((TlsClient.read m len).run c).2.writer = c.writer := by
  obtain ⟨f, hf⟩ := read_only m len
  rw [hf]

theorem write_sends {m : Mode} {key iv data : Bytes} {e : Halt} {s' : TlsReader} {k : Nat} {fs : List (Option Nat)} {c : TlsClient} (hk : key.length = 32) (hi : iv.length = 12)
    (h : At m key iv data e s' k fs c) (buf : Bytes) (hn : k + (chunks 16384 buf).length < 2 ^ 64) {b : Bytes} {ok : Bool} {k' : Nat} {fs' : List (Option Nat)}
    (hs : sendItems key iv k ((chunks 16384 buf).map fun f => (23, f)) fs = (b, ok, k', fs')) :
    ∃ c', (TlsClient.write m buf).run c = (if ok then .ok buf.length else .err .IoFailure, c') ∧ At m key iv data e s' k' fs' c' ∧ c'.writer.writer.wire = c.writer.writer.wire ++ b := by
  rw [← h.faults] at hs
  obtain ⟨w', h1, h2, h3⟩ := writeChunks_sends hk hi .ApplicationDataTy _ h.keyed hn (TlsWriter.chunk_bound buf) hs
  have h1 : (TlsWriter.writeData m .ApplicationDataTy buf).run c.writer = _ := h1
  refine ⟨{ c with writer := w' }, ?_, ⟨h.there, h3, by simp only [h2]⟩, by simp only [h2]⟩
  rw [TlsClient.write, St.bind_run, writeAll_run, writeApplicationData_run _ _ _ (by rw [h.keyed.encryptor]; rfl), h1]
  cases ok <;> rfl

theorem close_sends {m : Mode} {key iv data : Bytes} {e : Halt} {s' : TlsReader} {k : Nat} {fs : List (Option Nat)} {c : TlsClient} (hk : key.length = 32) (hi : iv.length = 12)
    (h : At m key iv data e s' k fs c) (hn : k + 1 < 2 ^ 64) {b : Bytes} {ok : Bool} {k' : Nat} {fs' : List (Option Nat)} (hs : sendItems key iv k [(21, [2, 0])] fs = (b, ok, k', fs')) :
    ∃ c', (TlsClient.close m).run c = (if ok then .ok () else .err .IoFailure, c') ∧ At m key iv data e s' k' fs' c' ∧ c'.writer.writer.wire = c.writer.writer.wire ++ b := by
  rw [← h.faults] at hs
  obtain ⟨w', h1, h2, h3⟩ := writeChunks_sends hk hi .AlertTy [[2, 0]] h.keyed hn (TlsWriter.chunk_bound [2, 0]) hs
  refine ⟨{ c with writer := w' }, ?_, ⟨h.there, h3, by simp only [h2]⟩, by simp only [h2]⟩
  have : (TlsWriter.writeAlert m { level := .fatal, description := .close_notify }).run c.writer = (if ok then .ok () else .err .IoFailure, w') := by
    rw [writeAlert_run]; exact h1
  simp only [TlsClient.close, onWriter, St.zoom_run, this]

theorem sendItems_next {key iv : Bytes} (items : List (UInt8 × Bytes)) : ∀ {k : Nat} {fs : List (Option Nat)} {b : Bytes} {ok : Bool} {k' : Nat} {fs' : List (Option Nat)},
    sendItems key iv k items fs = (b, ok, k', fs') → k' ≤ k + items.length := by
  induction items with
  | nil => intro k fs b ok k' fs' h; simp only [sendItems, Prod.mk.injEq] at h; obtain ⟨-, -, rfl, -⟩ := h; simp
  | cons r rs ih =>
    intro k fs b ok k' fs' h
    simp only [sendItems] at h
    rcases hsp : sendPieces (recordPieces key iv k r.1 r.2) fs with ⟨b1, ok1, fs1⟩
    rw [hsp] at h
    cases ok1 with
    | true =>
      simp only [Prod.mk.injEq] at h
      have := ih (k := k + 1) (fs := fs1) (b := (sendItems key iv (k + 1) rs fs1).1) (ok := ok) (k' := k') (fs' := fs') (by rw [← h.2])
      rw [List.length_cons]
      omega
    | false =>
      simp only [Prod.mk.injEq] at h
      obtain ⟨-, -, rfl, -⟩ := h
      omega

/-! ### Proof: any number of calls -/

theorem Behaves.run (m : Mode) {key iv : Bytes} (hk : key.length = 32) (hi : iv.length = 12) {data : Bytes} {e : Halt} {s' : TlsReader} {k : Nat} {fs : List (Option Nat)} {calls : List Call}
    {rs : List CallResult} {out : Bytes} (h : Behaves key iv data e s' k fs calls rs out) : ∀ c : TlsClient, At m key iv data e s' k fs c → k + (calls.flatMap Call.records).length < 2 ^ 64 →
    (runSession m calls c).1 = rs ∧ (runSession m calls c).2.writer.writer.wire = c.writer.writer.wire ++ out := by
  induction h with
  | nil => intro c _ _; exact ⟨rfl, (List.append_nil _).symm⟩
  | @readFull data e s k fs len calls rs out hle _ ih =>
    intro c hc hn
    obtain ⟨c', h1, h2⟩ := (read_there m len c _ _ _ hc.there).1 hle
    have hw := read_writer m len c
    rw [h1] at hw
    obtain ⟨i1, i2⟩ := ih c' ⟨h2, by rw [hw]; exact hc.keyed, by rw [hw]; exact hc.faults⟩ (by simpa [Call.records] using hn)
    simp only [runSession, Call.run, h1]
    exact ⟨by rw [i1], by rw [i2, hw]⟩
  | @readShort data data' err e' s s' k fs len calls rs out hlt ha _ ih =>
    intro c hc hn
    obtain ⟨c', h1, h2, h3⟩ := ((read_there m len c _ _ _ hc.there).2 hlt).1 _ rfl
    obtain ⟨a, b⟩ := hc.there.after rfl
    have hw := read_writer m len c
    rw [h1] at hw
    obtain ⟨i1, i2⟩ := ih c' ⟨⟨_, _, h3, a, b, by rw [h2]; rfl, ha⟩, by rw [hw]; exact hc.keyed, by rw [hw]; exact hc.faults⟩ (by simpa [Call.records] using hn)
    simp only [runSession, Call.run, h1]
    exact ⟨by rw [i1], by rw [i2, hw]⟩
  | @readCrash data s k fs len calls hlt =>
    intro c hc _
    have h1 := ((read_there m len c _ _ _ hc.there).2 hlt).2 rfl
    have hw := read_writer m len c
    rcases hx : (TlsClient.read m len).run c with ⟨x, c'⟩
    rw [hx] at h1 hw
    simp only at h1 hw
    subst h1
    simp only [runSession, Call.run, hx]
    exact ⟨trivial, by rw [hw, List.append_nil]⟩
  | flush _ ih =>
    intro c hc hn
    obtain ⟨i1, i2⟩ := ih c hc (by simpa [Call.records] using hn)
    have h1 : TlsClient.flush.run c = (.ok (), c) := rfl
    simp only [runSession, Call.run, h1]
    exact ⟨by rw [i1], i2⟩
  | @write data e s k fs buf b k' fs' calls rs out hs _ ih =>
    intro c hc hn
    simp only [List.flatMap_cons, Call.records, List.length_append, List.length_map] at hn
    have hk' := sendItems_next _ hs
    rw [List.length_map] at hk'
    obtain ⟨c', h1, h2, h3⟩ := write_sends hk hi hc buf (by omega) hs
    obtain ⟨i1, i2⟩ := ih c' h2 (by omega)
    simp only [if_true] at h1
    simp only [runSession, Call.run, h1]
    exact ⟨by rw [i1], by rw [i2, h3, List.append_assoc]⟩
  | @writeFails data e s k fs buf b k' fs' calls rs out hs _ ih =>
    intro c hc hn
    simp only [List.flatMap_cons, Call.records, List.length_append, List.length_map] at hn
    have hk' := sendItems_next _ hs
    rw [List.length_map] at hk'
    obtain ⟨c', h1, h2, h3⟩ := write_sends hk hi hc buf (by omega) hs
    obtain ⟨i1, i2⟩ := ih c' h2 (by omega)
    simp only [Bool.false_eq_true, if_false] at h1
    simp only [runSession, Call.run, h1]
    exact ⟨by rw [i1], by rw [i2, h3, List.append_assoc]⟩
  | @close data e s k fs b k' fs' calls rs out hs _ ih =>
    intro c hc hn
    simp only [List.flatMap_cons, Call.records, List.length_append, List.length_cons, List.length_nil] at hn
    have hk' := sendItems_next _ hs
    simp only [List.length_cons, List.length_nil] at hk'
    obtain ⟨c', h1, h2, h3⟩ := close_sends hk hi hc (by omega) hs
    obtain ⟨i1, i2⟩ := ih c' h2 (by omega)
    simp only [if_true] at h1
    simp only [runSession, Call.run, h1]
    exact ⟨by rw [i1], by rw [i2, h3, List.append_assoc]⟩
  | @closeFails data e s k fs b k' fs' calls rs out hs _ ih =>
    intro c hc hn
    simp only [List.flatMap_cons, Call.records, List.length_append, List.length_cons, List.length_nil] at hn
    have hk' := sendItems_next _ hs
    simp only [List.length_cons, List.length_nil] at hk'
    obtain ⟨c', h1, h2, h3⟩ := close_sends hk hi hc (by omega) hs
    obtain ⟨i1, i2⟩ := ih c' h2 (by omega)
    simp only [Bool.false_eq_true, if_false] at h1
    simp only [runSession, Call.run, h1]
    exact ⟨by rw [i1], by rw [i2, h3, List.append_assoc]⟩

theorem behaves_total (key iv : Bytes) (calls : List Call) : ∀ (data : Bytes) (e : Halt) (s : TlsReader) (k : Nat) (fs : List (Option Nat)), (∀ k, e = .failed k → Room s ∧ HasDecryptor s) →
    ∃ rs out, Behaves key iv data e s k fs calls rs out := by
  induction calls with
  | nil => intro data e s k fs _; exact ⟨_, _, .nil⟩
  | cons call calls ih =>
    intro data e s k fs h
    cases call with
    | flush => obtain ⟨rs, out, g⟩ := ih data e s k fs h; exact ⟨_, _, .flush g⟩
    | write buf =>
      rcases hs : sendItems key iv k ((chunks 16384 buf).map fun f => (23, f)) fs with ⟨b, ok, k', fs'⟩
      obtain ⟨rs, out, g⟩ := ih data e s k' fs' h
      cases ok with
      | true => exact ⟨_, _, .write hs g⟩
      | false => exact ⟨_, _, .writeFails hs g⟩
    | close =>
      rcases hs : sendItems key iv k [(21, [2, 0])] fs with ⟨b, ok, k', fs'⟩
      obtain ⟨rs, out, g⟩ := ih data e s k' fs' h
      cases ok with
      | true => exact ⟨_, _, .close hs g⟩
      | false => exact ⟨_, _, .closeFails hs g⟩
    | read len =>
      by_cases hle : len ≤ data.length
      · obtain ⟨rs, out, g⟩ := ih (data.drop len) e s k fs h
        exact ⟨_, _, .readFull hle g⟩
      · cases e with
        | crash => exact ⟨_, _, .readCrash (by omega)⟩
        | failed err =>
          obtain ⟨a, b⟩ := h err rfl
          obtain ⟨data', e', s', hA⟩ := arrives_total s a b
          obtain ⟨rs, out, g⟩ := ih data' e' s' k fs (fun k' he => hA.after a b he)
          exact ⟨_, _, .readShort (by omega) hA g⟩

theorem ProtectedStream.count {key iv : Bytes} {ty : UInt8} {k : Nat} {prot : List (UInt8 × UInt8 × Bytes)} {w : Bytes} (h : ProtectedStream key iv ty k prot w) : 5 * prot.length ≤ w.length := by
  induction h with
  | nil => simp
  | cons _ _ _ ih => rw [List.length_append, recordBytes_length, List.length_cons]; omega

/-! ### C109 -/

/-- C109: on a client with keys, any calls return, and put on the wire, what `Behaves` says, and nothing else. -/
theorem C109_calls (m : Mode) (key iv : Bytes) (c : TlsClient) (k : Nat) (data : Bytes) (e : Halt) (s' : TlsReader) (calls : List Call) (rs : List CallResult) (out : Bytes) (hk : key.length = 32)
    (hi : iv.length = 12) (hw : Keyed m key iv k c.writer) (hr : Room c.reader) (hd : HasDecryptor c.reader) (hA : Arrives c.reader data e s')
    (hn : k + (calls.flatMap Call.records).length < 2 ^ 64) :
    ((runSession m calls c).1 = rs ∧ (runSession m calls c).2.writer.writer.wire = c.writer.writer.wire ++ out) ↔ Behaves key iv (c.buf ++ data) e s' k c.writer.writer.faults calls rs out := by
  have hc : At m key iv (c.buf ++ data) e s' k c.writer.writer.faults c := ⟨⟨c.reader, data, Same.refl _, hr, hd, rfl, hA⟩, hw, rfl⟩
  constructor
  · rintro ⟨rfl, h2⟩
    obtain ⟨rs', out', g⟩ := behaves_total key iv calls (c.buf ++ data) e s' k c.writer.writer.faults (fun k he => hc.there.after he)
    obtain ⟨g1, g2⟩ := g.run m hk hi c hc hn
    rw [h2] at g2
    rw [g1, List.append_cancel_left g2]
    exact g
  · exact fun g => g.run m hk hi c hc hn

/-- C109: after every completed handshake, over any transport, what arrives is determined (C108), and any calls return, and put on the wire, what `Behaves` says, and nothing else. -/
theorem C109_session (m : Mode) (rd : Reader) (wr : Writer) (rng : Rng) (c : TlsClient) (h : TlsClient.new m rd wr rng = (.ok (), c)) (hrd : countBytes rd.stream + 1 < 2 ^ 64) :
    ∃ S clear prot a b protWire pre post, Completed m rd wr rng c S clear prot a b protWire pre post ∧ ∃ data e s', Arrives c.reader data e s' ∧
      ∀ calls, (calls.flatMap Call.records).length + 1 < 2 ^ 64 → ∀ rs out,
        ((runSession m calls c).1 = rs ∧ (runSession m calls c).2.writer.writer.wire = wr.wire ++ (clientFlight S.random S.point S.keys S.clientVerify).flatten ++ out) ↔
          Behaves S.keys.clientKey S.keys.clientIv data e s' 1 c.writer.writer.faults calls rs out := by
  obtain ⟨S, clear, prot, a, b, protWire, pre, post, hC⟩ := C27_flight_partial m rd wr rng c h
  refine ⟨S, clear, prot, a, b, protWire, pre, post, hC, ?_⟩
  obtain ⟨k1, k2, k3, k4⟩ := hC.ready.lengths
  have hd : HasDecryptor c.reader := ⟨m, _, hC.ready.decryptor, k2⟩
  have hr : Room c.reader := by
    have h1 := congrArg countBytes hC.stream
    rw [countBytes_append, countBytes_ofBytes, List.length_append, List.length_append, recordBytes_length] at h1
    have h2 := hC.opened.count
    have h3 := hC.ready.readCount
    have h4 := Nat.mod_le prot.length (2 ^ 64)
    unfold Room
    omega
  obtain ⟨data, e, s', hA⟩ := arrives_total c.reader hr hd
  refine ⟨data, e, s', hA, fun calls hn rs out => ?_⟩
  have hx := C109_calls m _ _ c 1 data e s' calls rs out k1 k3 ⟨hC.ready.encryptor, hC.ready.writerIv, by rw [hC.ready.writeCount]; rfl⟩ hr hd hA (by omega)
  rw [hC.ready.buf, List.nil_append] at hx
  rw [← hC.sent]
  exact hx

/-- C109: and there is exactly one such behaviour. -/
theorem C109_unique (m : Mode) (key iv : Bytes) (c : TlsClient) (k : Nat) (data : Bytes) (e : Halt) (s' : TlsReader) (calls : List Call) (hk : key.length = 32) (hi : iv.length = 12)
    (hw : Keyed m key iv k c.writer) (hr : Room c.reader) (hd : HasDecryptor c.reader) (hA : Arrives c.reader data e s') (hn : k + (calls.flatMap Call.records).length < 2 ^ 64) :
    ∃ rs out, Behaves key iv (c.buf ++ data) e s' k c.writer.writer.faults calls rs out ∧
      ∀ rs' out', Behaves key iv (c.buf ++ data) e s' k c.writer.writer.faults calls rs' out' → rs' = rs ∧ out' = out := by
  obtain ⟨rs, out, g⟩ := behaves_total key iv calls (c.buf ++ data) e s' k c.writer.writer.faults (fun k he => hA.after hr hd he)
  refine ⟨rs, out, g, fun rs' out' g' => ?_⟩
  obtain ⟨h1, h2⟩ := (C109_calls m key iv c k data e s' calls rs out hk hi hw hr hd hA hn).2 g
  obtain ⟨h3, h4⟩ := (C109_calls m key iv c k data e s' calls rs' out' hk hi hw hr hd hA hn).2 g'
  exact ⟨h3.symm.trans h1, List.append_cancel_left (h4.symm.trans h2)⟩

/-- A write that fails three bytes into the ciphertext, a write after it, a `read` at the end of the stream and a close whose first byte is not taken: the second record has the number of
the first. -/
example (m : Mode) (key iv : Bytes) (c : TlsClient) (k : Nat) (hk : key.length = 32) (hi : iv.length = 12) (hw : Keyed m key iv k c.writer) (hr : Room c.reader) (hd : HasDecryptor c.reader)
    (hb : c.buf = [8, 9]) (hh : c.reader.handshakeBuffer = ⟨[]⟩) (hs : c.reader.reader = ⟨[]⟩) (hn : k + 3 < 2 ^ 64)
    (hf : c.writer.writer.faults = [none, none, none, none, some 3, none, none, none, none, none, some 0]) :
    (runSession m [.write [1, 2], .write [3], .read 5, .flush, .close] c).1 = [.write (.err .IoFailure), .write (.ok 1), .read (.ok [8, 9]), .done (.ok ()), .done (.err .IoFailure)] ∧
    (runSession m [.write [1, 2], .write [3], .read 5, .flush, .close] c).2.writer.writer.wire = c.writer.writer.wire ++
      (([23, 3, 3] ++ (beBytes 2 18 ++ (Aead.sealMsg key (recordNonce iv k) (recordAad k 23 3 3 2) [1, 2]).take 3)) ++
      (([23, 3, 3] ++ (beBytes 2 17 ++ Aead.sealMsg key (recordNonce iv k) (recordAad k 23 3 3 1) [3])) ++ ([] ++ []))) := by
  have a := arrives_end c.reader hh hs
  have c1 : chunks 16384 ([1, 2] : Bytes) = [[1, 2]] := chunks_small (by simp) (by decide)
  have c2 : chunks 16384 ([3] : Bytes) = [[3]] := chunks_small (by simp) (by decide)
  refine (C109_calls m key iv c k _ _ _ _ _ _ hk hi hw hr hd a (by simpa [Call.records, c1, c2] using hn)).2 ?_
  rw [hb, hf]
  exact .writeFails (k' := k) (fs' := [none, none, none, none, none, some 0]) (by simp [c1, c2, sendItems, sendPieces, sendPiece, recordPieces])
    (.write (buf := [3]) (k' := k + 1) (fs' := [some 0]) (by simp [c1, c2, sendItems, sendPieces, sendPiece, recordPieces])
      (.readShort (by simp) a (.flush (.closeFails (k' := k + 1) (fs' := []) (by simp [sendItems, sendPieces, sendPiece, recordPieces]) .nil))))

end Husk
