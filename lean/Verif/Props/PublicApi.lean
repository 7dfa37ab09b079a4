import Verif.Props.SessionData
import Verif.Props.KeysOnce
import Verif.Props.Keystream
import Verif.Props.Example
/-! # C113: no public call sends anything unprotected or lets in anything unauthenticated

`TlsClient` has public fields `reader` and `writer`, `send_tls_alert` is public, and the record layer below has public methods of its own: `write_record`, `write_handshake`, `read_message`, …
A caller may mix all of them with `read`, `write`, `flush` and `close`, in any order, and go on after errors and (with `catch_unwind`) after panics. Only what a caller does to the
transport itself, through `get_mut`, is left out, and that the fields may be overwritten with other values. -/

namespace Husk

open Item Spec TlsReader TlsClient

/-! ### Histories -/

/-- A public call on a connection: of `TlsClient` (src/client.rs:248-349), `send_tls_alert` (src/client.rs:259-271), on the field `writer` (src/tls.rs:83-192), on the field `reader`
(src/tls.rs:213-430). -/
inductive ApiCall where
  | client (c : Call)
  | sendAlert (k : TlsErrorKind)
  | writer (w : WriterCall)
  | reader (r : ReaderCall)

/-- Not through `get_mut`, and not the private `read_record`. -/
def ApiCall.InBand : ApiCall → Prop
  | .reader .record => False
  | .writer (.transport _) => False
  | .reader (.transport _) => False
  | _ => True

/-- What a call returned. `message`: the message that a call on the field `reader` handed out. -/
inductive ApiResult where
  | client (r : CallResult)
  | alert (r : Res TlsErrorKind)
  | written (r : Res Unit)
  | message (r : Res (Option Message))

/-- A call on the field `reader`, with its result (`ReaderCall.act` drops it). -/
def ReaderCall.result (m : Mode) : ReaderCall → St TlsReader (Option Message)
  | .setDecryptor d => do TlsReader.setDecryptor d; return none
  | .setIv iv => do TlsReader.setIv iv; return none
  | .record => do
    let _ ← TlsReader.readRecord m
    return none
  | .message => do let msg ← TlsReader.readMessage m; return some msg
  | .applicationData => do let d ← TlsReader.readApplicationData m; return some (.ApplicationDataMessage d)
  | .handshake => do let h ← TlsReader.readHandshake m; return some (.HandshakeMessage h)
  | .changeCipherSpec => do TlsReader.readChangeCipherSpec m; return some .ChangeCipherSpecMessage
  | .transport rd => ⟨fun s => (.ok none, { s with reader := rd })⟩

def ApiCall.run (m : Mode) (c : TlsClient) : ApiCall → ApiResult × TlsClient
  | .client call => let r := call.run m c; (.client r.1, r.2)
  | .sendAlert k => let r := (TlsClient.sendTlsAlert m k).run c; (.alert r.1, r.2)
  | .writer call => let r := (call.act m).run c.writer; (.written r.1, { c with writer := r.2 })
  | .reader call => let r := (call.result m).run c.reader; (.message r.1, { c with reader := r.2 })

/-- A history of calls; it goes on after errors and panics. -/
def runApi (m : Mode) : List ApiCall → TlsClient → List ApiResult × TlsClient
  | [], c => ([], c)
  | call :: calls, c =>
    let r := call.run m c
    let rs := runApi m calls r.2
    (r.1 :: rs.1, rs.2)

/-! ### Specification of what is sent -/

/-- A protected record (RFC 7905) with number `number`, of which the whole or only the first bytes went out. -/
structure Piece where
  number : Nat
  ty : UInt8
  major : UInt8
  minor : UInt8
  plain : Bytes
  /-- `none`: all of it. -/
  cut : Option Nat

def Piece.whole (key iv : Bytes) (p : Piece) : Bytes :=
  recordBytes p.ty p.major p.minor (Spec.Aead.sealMsg key (recordNonce iv p.number) (recordAad p.number p.ty p.major p.minor p.plain.length) p.plain)

def Piece.bytes (key iv : Bytes) (p : Piece) : Bytes :=
  match p.cut with
  | none => p.whole key iv
  | some n => (p.whole key iv).take n

/-- The pieces are numbered from `k`; a whole record uses up its number, another one does not. -/
inductive Numbered : Nat → List Piece → Nat → Prop
  | nil {k} : Numbered k [] k
  | whole {k k' p ps} : p.number = k → p.cut = none → p.plain.length + 16 ≤ 18432 → Numbered ((k + 1) % 2 ^ 64) ps k' → Numbered k (p :: ps) k'
  | torn {k k' p ps n} : p.number = k → p.cut = some n → p.plain.length + 16 ≤ 18432 → Numbered k ps k' → Numbered k (p :: ps) k'

/-- The call returned without error. -/
def CallResult.Succeeded : CallResult → Prop
  | .read _ => True
  | .write r => ∃ n, r = .ok n
  | .done r => r = .ok ()

/-- The call wrote without an error. (`send_tls_alert` hides an error of its own; a call of it may have failed.) -/
def ApiResult.Succeeded : ApiResult → Prop
  | .client r => r.Succeeded
  | .alert _ => False
  | .written r => r = .ok ()
  | .message _ => True

theorem Numbered.append {k k' k'' : Nat} {a b : List Piece} (h : Numbered k a k') (h' : Numbered k' b k'') : Numbered k (a ++ b) k'' := by
  induction h with
  | nil => exact h'
  | whole e1 e2 e3 _ ih => exact .whole e1 e2 e3 (ih h')
  | torn e1 e2 e3 _ ih => exact .torn e1 e2 e3 (ih h')

/-- Whole records have consecutive numbers. -/
theorem Numbered.consecutive {k k' : Nat} {ps : List Piece} (hk : k < 2 ^ 64) (h : Numbered k ps k') (hw : ∀ p ∈ ps, p.cut = none) :
    ∀ i p, ps[i]? = some p → p.number = (k + i) % 2 ^ 64 := by
  induction h with
  | nil => intro i p hp; simp at hp
  | @whole k k' q ps e1 e2 e3 _ ih =>
    intro i p hp
    cases i with
    | zero =>
      simp only [List.getElem?_cons_zero, Option.some.injEq] at hp
      rw [← hp, e1, Nat.add_zero, Nat.mod_eq_of_lt hk]
    | succ i =>
      have := ih (Nat.mod_lt _ (by omega)) (fun p hp => hw p (List.mem_cons_of_mem _ hp)) i p hp
      rw [this]
      omega
  | torn e1 e2 => 
    have := hw _ (List.mem_cons_self ..)
    rw [e2] at this
    cases this

/-! ### One record -/

theorem encrypt_long (m : Mode) (key nonce data ad c : Bytes) (hk : key.length = 32) (hn : nonce.length = 12) (h : Aead.encrypt m key nonce data ad = .ok c) :
    data.length ≤ c.length := by
  by_cases hl : data.length ≤ 2 ^ 38 - 128
  · rw [C39_encrypt_is_rfc8439 m key nonce data ad hk hn hl] at h
    rw [← Res.ok.inj h]
    simp [Spec.Aead.sealMsg, Spec.ChaCha20.encrypt]
  · obtain ⟨s, h1, h2⟩ := ChaCha20.new_at key nonce hk hn
    rw [Aead.encrypt, h1] at h
    simp only [Res.bind_ok] at h
    obtain ⟨s1, h3, h4⟩ := ChaCha20.next_spec m h2 (by omega)
    rw [h3] at h
    simp only [Res.bind_ok] at h
    cases m with
    | debug =>
      rw [ChaCha20.encrypt, encryptChunks_debug data h4 (by omega)] at h
      cases h
    | release =>
      obtain ⟨s2, h5, -⟩ := encryptChunks_release (k := 0 + 1) data (by simpa using h4)
      rw [ChaCha20.encrypt, h5] at h
      simp only [Res.bind_ok] at h
      rcases hm : Aead.computeMac .release (Spec.ChaCha20.block key 0 nonce) (Spec.ChaCha20.encrypt key (0 + 1) nonce data) ad with mac | _ | _ | _
      · rw [hm] at h
        simp only [Res.bind_ok, Res.pure_def, Res.ok.injEq] at h
        rw [← h]
        simp [Spec.ChaCha20.encrypt]
      all_goals rw [hm] at h; cases h

/-- The writing side works under these keys. -/
def KeyedBy (m : Mode) (key iv : Bytes) (w : TlsWriter) : Prop := w.keysOf = (some (.chacha m key), some iv)

/-- Under the keys of a connection, what `write_record` sends is the protected record of RFC 7905, whatever record it is given. -/
theorem sealed_any {w : TlsWriter} {m : Mode} {key iv : Bytes} (h : KeyedBy m key iv w) (hk : key.length = 32) (hl : iv.length = 12) (r : Record) {c : Bytes}
    (hs : w.sealed r = .ok c) (hc : c.length ≤ ENC_RECORD_MAX_LEN) :
    r.fragment.length + 16 ≤ 18432 ∧
      c = Spec.Aead.sealMsg key (recordNonce iv w.writeCount.toNat) (recordAad w.writeCount.toNat r.contentType.toU8 r.verMajor r.verMinor r.fragment.length) r.fragment := by
  have he : w.encryptor = some (.chacha m key) := congrArg Prod.fst h
  have hi : w.iv = some iv := congrArg Prod.snd h
  have hE : ENC_RECORD_MAX_LEN = 18432 := rfl
  have hn : w.nonce = recordNonce iv w.writeCount.toNat := by rw [TlsWriter.nonce_eq, hi, nonceFor, xorIv_spec _ _ hl]
  have hnl : w.nonce.length = 12 := by rw [TlsWriter.nonce_eq, nonceFor_length]
  rw [TlsWriter.sealed, he] at hs
  have hs : Aead.encrypt m key w.nonce r.fragment (w.ad r) = .ok c := hs
  have hlong := encrypt_long m key _ _ _ _ hk hnl hs
  rw [TlsWriter.ad_eq, C39_encrypt_is_rfc8439 m key _ r.fragment _ hk hnl (by omega), hn] at hs
  have hs := Res.ok.inj hs
  refine ⟨?_, hs.symm⟩
  rw [← hs] at hc
  have : (Spec.Aead.sealMsg key (recordNonce iv w.writeCount.toNat) (recordAad w.writeCount.toNat r.contentType.toU8 r.verMajor r.verMinor r.fragment.length) r.fragment).length =
      r.fragment.length + 16 := by simp [Spec.Aead.sealMsg, Spec.ChaCha20.encrypt, Spec.Aead.tag, Spec.Poly1305.mac_length]
  omega

/-! ### What a call sends -/

/-- Whatever the call does, it sends pieces of protected records; whole ones if it succeeds. -/
def Seals (m : Mode) (key iv : Bytes) (x : St TlsWriter α) : Prop := ∀ w, KeyedBy m key iv w → KeyedBy m key iv (x.run w).2 ∧ ∃ ps,
  Numbered w.writeCount.toNat ps (x.run w).2.writeCount.toNat ∧ (x.run w).2.writer.wire = w.writer.wire ++ ps.flatMap (Piece.bytes key iv) ∧
    ∀ a, (x.run w).1 = .ok a → ∀ p ∈ ps, p.cut = none

namespace Seals

variable {m : Mode} {key iv : Bytes}

theorem still (x : St TlsWriter α) (h : ∀ w, KeyedBy m key iv w → (x.run w).2 = w) : Seals m key iv x := by
  intro w hw
  rw [h w hw]
  exact ⟨hw, [], .nil, by simp, by simp⟩

theorem lift (r : Res α) : Seals m key iv (St.lift r) := still _ fun _ _ => rfl
theorem pure (a : α) : Seals m key iv (Pure.pure a : St TlsWriter α) := still _ fun _ _ => rfl
theorem get : Seals m key iv (St.get : St TlsWriter TlsWriter) := still _ fun _ _ => rfl

theorem bind {x : St TlsWriter α} {g : α → St TlsWriter β} (h : Seals m key iv x) (hg : ∀ a, Seals m key iv (g a)) : Seals m key iv (x >>= g) := by
  intro w hw
  obtain ⟨h1, ps, h2, h3, h4⟩ := h w hw
  rw [St.bind_run]
  rcases hx : x.run w with ⟨r, w1⟩
  rw [hx] at h1 h2 h3 h4
  cases r with
  | ok a =>
    obtain ⟨g1, qs, g2, g3, g4⟩ := hg a w1 h1
    refine ⟨g1, ps ++ qs, h2.append g2, ?_, fun b hb p hp => ?_⟩
    · show ((g a).run w1).2.writer.wire = _
      rw [g3, h3, List.flatMap_append, List.append_assoc]
    · rcases List.mem_append.mp hp with hp | hp
      · exact h4 a rfl p hp
      · exact g4 b hb p hp
  | err k => exact ⟨h1, ps, h2, h3, fun _ hb => by cases hb⟩
  | panic => exact ⟨h1, ps, h2, h3, fun _ hb => by cases hb⟩
  | diverge => exact ⟨h1, ps, h2, h3, fun _ hb => by cases hb⟩

theorem ite {p : Prop} [Decidable p] {x y : St TlsWriter α} (hx : Seals m key iv x) (hy : Seals m key iv y) : Seals m key iv (if p then x else y) := by split <;> assumption

variable (hk : key.length = 32) (hl : iv.length = 12)
include hk hl

theorem record (r : Record) : Seals m key iv (TlsWriter.writeRecord m r) := by
  intro w hw
  have hkeys : KeyedBy m key iv ((TlsWriter.writeRecord m r).run w).2 := by rw [KeyedBy, TlsWriter.writeRecord_untouched m r w]; exact hw
  refine ⟨hkeys, ?_⟩
  rw [TlsWriter.writeRecord_run]
  cases hs : w.sealed r with
  | ok c =>
    simp only
    obtain ⟨l1, l2, l3, l4⟩ := TlsWriter.logged_same w r c
    split
    · exact ⟨[], by rw [l3]; exact .nil, by rw [l1]; simp, by simp⟩
    · rename_i hlen
      obtain ⟨s1, s2⟩ := sealed_any hw hk hl r hs (by omega)
      have hwhole : ∀ o, Piece.whole key iv ⟨w.writeCount.toNat, r.contentType.toU8, r.verMajor, r.verMinor, r.fragment, o⟩ =
          recordBytes r.contentType.toU8 r.verMajor r.verMinor c := fun o => by rw [Piece.whole, ← s2]
      rcases TlsWriter.emit_cases m r c (w.logged r c) (by omega) with ⟨w', g1, g2, -⟩ | ⟨w', n, g1, g2, -⟩
      · rw [g1]
        rcases TlsWriter.bump_cases m { w.logged r c with writer := w' } with hb | ⟨hb, -⟩
        · rw [hb]
          refine ⟨[⟨w.writeCount.toNat, r.contentType.toU8, r.verMajor, r.verMinor, r.fragment, none⟩], ?_, ?_, ?_⟩
          · refine .whole rfl rfl s1 ?_
            simp only [l3, UInt64.toNat_add]
            exact .nil
          · simp only [List.flatMap_cons, List.flatMap_nil, List.append_nil, Piece.bytes, hwhole]
            rw [g2, l1]
          · intro _ _ p hp
            rw [List.mem_singleton.mp hp]
        · rw [hb]
          refine ⟨[⟨w.writeCount.toNat, r.contentType.toU8, r.verMajor, r.verMinor, r.fragment, some (recordBytes r.contentType.toU8 r.verMajor r.verMinor c).length⟩], ?_, ?_, ?_⟩
          · refine .torn rfl rfl s1 ?_
            simp only [l3]
            exact .nil
          · simp only [List.flatMap_cons, List.flatMap_nil, List.append_nil, Piece.bytes, hwhole, List.take_length]
            rw [g2, l1]
          · intro _ h; cases h
      · rw [g1]
        refine ⟨[⟨w.writeCount.toNat, r.contentType.toU8, r.verMajor, r.verMinor, r.fragment, some n⟩], ?_, ?_, ?_⟩
        · refine .torn rfl rfl s1 ?_
          simp only [l3]
          exact .nil
        · simp only [List.flatMap_cons, List.flatMap_nil, List.append_nil, Piece.bytes, hwhole]
          rw [g2, l1]
        · intro _ h; cases h
  | err k => exact ⟨[], .nil, by simp, by simp⟩
  | panic => exact ⟨[], .nil, by simp, by simp⟩
  | diverge => exact ⟨[], .nil, by simp, by simp⟩

theorem chunks (ty : ContentType) (cs : List Bytes) : Seals m key iv (TlsWriter.writeChunks m ty cs) := by
  induction cs with
  | nil => exact pure _
  | cons c cs ih => exact bind (lift _) fun r => bind (record hk hl r) fun _ => ih

theorem data (ty : ContentType) (d : Bytes) : Seals m key iv (TlsWriter.writeData m ty d) := chunks hk hl ty _

theorem alert (a : Alert) : Seals m key iv (TlsWriter.writeAlert m a) := bind (lift _) fun d => data hk hl _ d

theorem call (w : WriterCall) (hw : (ApiCall.writer w).InBand) : Seals m key iv (w.act m) := by
  cases w with
  | setEncryptor e => exact still _ fun w hw => by rw [WriterCall.act, (C106_set w (TlsReader.new ⟨[]⟩) e (.chacha m []) []).1, show w.encryptor = _ from congrArg Prod.fst hw]; rfl
  | setIv iv => exact still _ fun w hw => by rw [WriterCall.act, (C106_set w (TlsReader.new ⟨[]⟩) (.chacha m []) (.chacha m []) iv).2.1, show w.iv = _ from congrArg Prod.snd hw]; rfl
  | record r => exact record hk hl r
  | data ty d => exact data hk hl ty d
  | handshake h => exact bind (lift _) fun d => data hk hl _ d
  | alert a => exact alert hk hl a
  | changeCipherSpec => exact data hk hl _ _
  | applicationData d => exact bind get fun _ => ite (lift _) (data hk hl _ d)
  | transport wr => exact absurd hw id

end Seals

/-! ### What a call on a connection sends -/

/-- From the writer `w` to the writer `w'`, pieces of protected records were sent; whole ones if `good`. -/
def Sealed (m : Mode) (key iv : Bytes) (w w' : TlsWriter) (good : Prop) : Prop := KeyedBy m key iv w' ∧ ∃ ps,
  Numbered w.writeCount.toNat ps w'.writeCount.toNat ∧ w'.writer.wire = w.writer.wire ++ ps.flatMap (Piece.bytes key iv) ∧ (good → ∀ p ∈ ps, p.cut = none)

theorem Sealed.refl {m : Mode} {key iv : Bytes} {w : TlsWriter} (h : KeyedBy m key iv w) (good : Prop) : Sealed m key iv w w good := ⟨h, [], .nil, by simp, by simp⟩

theorem Sealed.trans {m : Mode} {key iv : Bytes} {w w' w'' : TlsWriter} {a b c : Prop} (h : Sealed m key iv w w' a) (h' : Sealed m key iv w' w'' b) (hc : c → a ∧ b) :
    Sealed m key iv w w'' c := by
  obtain ⟨_, ps, h2, h3, h4⟩ := h
  obtain ⟨g1, qs, g2, g3, g4⟩ := h'
  refine ⟨g1, ps ++ qs, h2.append g2, by rw [g3, h3, List.flatMap_append, List.append_assoc], fun hh p hp => ?_⟩
  rcases List.mem_append.mp hp with hp | hp
  · exact h4 (hc hh).1 p hp
  · exact g4 (hc hh).2 p hp

theorem Seals.sealed {m : Mode} {key iv : Bytes} {x : St TlsWriter α} (h : Seals m key iv x) {w w' : TlsWriter} {r : Res α} (hw : KeyedBy m key iv w) (hx : x.run w = (r, w')) :
    Sealed m key iv w w' (∃ a, r = .ok a) := by
  obtain ⟨h1, ps, h2, h3, h4⟩ := h w hw
  rw [hx] at h1 h2 h3 h4
  exact ⟨h1, ps, h2, h3, fun ⟨a, ha⟩ => h4 a ha⟩

theorem onWriter_sealed {m : Mode} {key iv : Bytes} {x : St TlsWriter α} (h : Seals m key iv x) {c c' : TlsClient} {r : Res α} (hw : KeyedBy m key iv c.writer)
    (hx : (onWriter x).run c = (r, c')) : Sealed m key iv c.writer c'.writer (∃ a, r = .ok a) := by
  rcases hr : x.run c.writer with ⟨r', w'⟩
  simp only [TlsClient.onWriter, St.zoom_run, hr, Prod.mk.injEq] at hx
  obtain ⟨rfl, rfl⟩ := hx
  exact h.sealed hw hr

theorem sendTlsAlert_sealed {m : Mode} {key iv : Bytes} (hk : key.length = 32) (hl : iv.length = 12) (k : TlsErrorKind) {c : TlsClient} (hw : KeyedBy m key iv c.writer) :
    Sealed m key iv c.writer ((sendTlsAlert m k).run c).2.writer False := by
  have main : Sealed m key iv c.writer ((onWriter (TlsWriter.writeAlert m (Alert.fromTlsErr k))).run c).2.writer False :=
    (Sealed.refl hw True).trans (onWriter_sealed (Seals.alert hk hl (Alert.fromTlsErr k)) hw rfl) (fun h => h.elim)
  by_cases hio : k = .IoFailure
  · subst hio; exact Sealed.refl hw _
  · have e : (sendTlsAlert m k).run c = match (onWriter (TlsWriter.writeAlert m (Alert.fromTlsErr k))).run c with
      | (.ok (), c) => (.ok k, c)
      | (.err k', c) => (.ok k', c)
      | (.panic, c) => (.panic, c)
      | (.diverge, c) => (.diverge, c) := by cases k <;> first | exact absurd rfl hio | rfl
    rw [e]
    revert main
    generalize (onWriter (TlsWriter.writeAlert m (Alert.fromTlsErr k))).run c = p
    rcases p with ⟨_ | _ | _ | _, c'⟩ <;> exact id

theorem write_sealed {m : Mode} {key iv : Bytes} (hk : key.length = 32) (hl : iv.length = 12) (buf : Bytes) {c : TlsClient} (hw : KeyedBy m key iv c.writer) :
    Sealed m key iv c.writer ((TlsClient.write m buf).run c).2.writer (∃ n, ((TlsClient.write m buf).run c).1 = .ok n) := by
  have main := fun (r : Res Unit) (c' : TlsClient) => onWriter_sealed (r := r) (c' := c')
    (Seals.call (m := m) hk hl (.applicationData buf) trivial) hw
  have e : (TlsClient.writeAll m buf).run c = match (onWriter (TlsWriter.writeApplicationData m buf)).run c with
      | (.err k, c) => (sendTlsAlert m k >>= fun k' => St.err k').run c
      | (r, c) => (r, c) := rfl
  rw [TlsClient.write, St.bind_run, e]
  rcases hr : (onWriter (TlsWriter.writeApplicationData m buf)).run c with ⟨r, c'⟩
  have h1 := main r c' hr
  cases r with
  | ok a => exact (Sealed.refl hw True).trans h1 (fun _ => ⟨trivial, a, rfl⟩)
  | err k =>
    simp only [St.bind_run]
    have h2 := sendTlsAlert_sealed (m := m) hk hl k h1.1
    rcases hs : (sendTlsAlert m k).run c' with ⟨r', c''⟩
    rw [hs] at h2
    cases r' with
    | ok k' => exact h1.trans h2 (fun ⟨_, h⟩ => by cases h)
    | err k' => exact h1.trans h2 (fun ⟨_, h⟩ => by cases h)
    | panic => exact h1.trans h2 (fun ⟨_, h⟩ => by cases h)
    | diverge => exact h1.trans h2 (fun ⟨_, h⟩ => by cases h)
  | panic => exact (Sealed.refl hw True).trans h1 (fun ⟨_, h⟩ => by cases h)
  | diverge => exact (Sealed.refl hw True).trans h1 (fun ⟨_, h⟩ => by cases h)

theorem ApiCall.run_sealed {m : Mode} {key iv : Bytes} (hk : key.length = 32) (hl : iv.length = 12) (call : ApiCall) (hc : call.InBand) {c : TlsClient}
    (hw : KeyedBy m key iv c.writer) : Sealed m key iv c.writer (call.run m c).2.writer (call.run m c).1.Succeeded := by
  cases call with
  | client call =>
    cases call with
    | read len =>
      rcases hr : (TlsClient.read m len).run c with ⟨x, c'⟩
      obtain ⟨n, -, h2, -⟩ := C22_read m len c c' x hr
      simp only [ApiCall.run, Call.run, hr, h2]
      exact Sealed.refl hw _
    | write buf => exact write_sealed hk hl buf hw
    | flush => exact Sealed.refl hw _
    | close => exact (Sealed.refl hw True).trans (onWriter_sealed (Seals.alert hk hl _) hw rfl) (fun h => ⟨trivial, (), h⟩)
  | sendAlert k => exact sendTlsAlert_sealed hk hl k hw
  | writer w => exact (Sealed.refl hw True).trans ((Seals.call hk hl w hc).sealed hw rfl) (fun h => ⟨trivial, (), h⟩)
  | reader r => exact Sealed.refl hw _

theorem runApi_sealed {m : Mode} {key iv : Bytes} (hk : key.length = 32) (hl : iv.length = 12) (calls : List ApiCall) (hb : ∀ call ∈ calls, call.InBand) {c : TlsClient}
    (hw : KeyedBy m key iv c.writer) : Sealed m key iv c.writer (runApi m calls c).2.writer (∀ r ∈ (runApi m calls c).1, r.Succeeded) := by
  induction calls generalizing c with
  | nil => exact Sealed.refl hw _
  | cons call calls ih =>
    have h1 := call.run_sealed hk hl (hb _ (List.mem_cons_self ..)) hw
    have h2 := ih (fun k hk => hb k (List.mem_cons_of_mem _ hk)) h1.1
    exact h1.trans h2 fun h => ⟨h _ (List.mem_cons_self ..), fun r hr => h r (List.mem_cons_of_mem _ hr)⟩

/-- C113, sending: after every successful handshake, whatever the server was and whatever the transport does, every history of public calls puts on the wire, after the handshake, nothing but
protected records under the client's keys of this session, numbered from 1 on, of each of them either all bytes or (when the call failed) the first bytes. If no call failed, all are whole and
numbered consecutively; and if they are fewer than 2^64 - 1, no nonce occurs twice. -/
theorem C113_sent (m : Mode) (rd : Reader) (wr : Writer) (rng : Rng) (c : TlsClient) (h : TlsClient.new m rd wr rng = (.ok (), c)) (calls : List ApiCall)
    (hb : ∀ call ∈ calls, call.InBand) :
    ∃ S clear prot a b protWire pre post, Completed m rd wr rng c S clear prot a b protWire pre post ∧
      ∃ ps last, Numbered 1 ps last ∧
        (runApi m calls c).2.writer.writer.wire = wr.wire ++ (clientFlight S.random S.point S.keys S.clientVerify).flatten ++
          ps.flatMap (Piece.bytes S.keys.clientKey S.keys.clientIv) ∧
        ((∀ r ∈ (runApi m calls c).1, r.Succeeded) → (∀ p ∈ ps, p.cut = none) ∧ (∀ i p, ps[i]? = some p → p.number = (1 + i) % 2 ^ 64) ∧
          (ps.length < 2 ^ 64 - 1 → ((0 :: ps.map Piece.number).map (recordNonce S.keys.clientIv)).Nodup)) := by
  obtain ⟨S, clear, prot, a, b, protWire, pre, post, hC⟩ := C27_flight_partial m rd wr rng c h
  obtain ⟨k1, k2, k3, k4⟩ := hC.ready.lengths
  have hw : KeyedBy m S.keys.clientKey S.keys.clientIv c.writer := by rw [KeyedBy, TlsWriter.keysOf, hC.ready.encryptor, hC.ready.writerIv]
  obtain ⟨-, ps, h2, h3, h4⟩ := runApi_sealed k1 k3 calls hb hw
  have hone : c.writer.writeCount.toNat = 1 := by rw [hC.ready.writeCount]; rfl
  rw [hone] at h2
  refine ⟨S, clear, prot, a, b, protWire, pre, post, hC, ps, _, h2, by rw [h3, hC.sent], fun hg => ⟨h4 hg, h2.consecutive (by omega) (h4 hg), fun hlen => ?_⟩⟩
  have hcons := h2.consecutive (by omega) (h4 hg)
  have hnum : 0 :: ps.map Piece.number = List.range (ps.length + 1) := by
    apply List.ext_getElem?
    intro i
    cases i with
    | zero => simp
    | succ i =>
      rw [List.getElem?_cons_succ, List.getElem?_map]
      by_cases hi : i < ps.length
      · have := hcons i ps[i] (List.getElem?_eq_getElem hi)
        rw [List.getElem?_eq_getElem hi, Option.map_some, this, List.getElem?_range (by omega)]
        congr 1
        omega
      · rw [List.getElem?_eq_none (by omega), List.getElem?_eq_none (by simp; omega)]; rfl
  rw [hnum]
  refine (List.nodup_range).map_on ?_
  intro x hx y hy e
  rw [List.mem_range] at hx hy
  have hx' : (UInt64.ofNat x).toNat = x := by rw [UInt64.toNat_ofNat']; omega
  have hy' : (UInt64.ofNat y).toNat = y := by rw [UInt64.toNat_ofNat']; omega
  rw [← hx', ← hy', ← xorIv_spec _ _ k3, ← xorIv_spec _ _ k3] at e
  rw [← hx', ← hy', nonceFor_inj (iv := some S.keys.clientIv) e]

/-! ### Specification of what is let in -/

/-- Records opened by a call: type, version, plaintext. -/
abbrev Log := List (UInt8 × UInt8 × UInt8 × Bytes)

/-- How what a call other than `TlsClient::read` handed out came from the records it opened. A handshake message comes from the buffer, that is from this call's handshake records and earlier
ones. A call that failed hands out nothing. -/
def ApiResult.From (log : Log) : ApiResult → Prop
  | .message (.ok (some (.ApplicationDataMessage d))) => appData log = d
  | .message (.ok (some (.AlertMessage a))) => ∃ pre x y f, log = pre ++ [(21, x, y, f)] ∧ (f.take 2).map UInt8.toNat = [TlsEnum.code a.level, TlsEnum.code a.description] ∧ appData log = []
  | .message (.ok (some .ChangeCipherSpecMessage)) => ∃ pre x y, log = pre ++ [(20, x, y, [1])] ∧ appData log = []
  | .message (.ok (some (.HandshakeMessage _))) => ∀ r ∈ log, r.1 = 22
  | .message (.ok none) => log = []
  | .message _ => True
  | .client (.read _) => True
  | _ => log = []

/-- The bytes a `TlsClient::read` handed out. -/
def ApiResult.readBytes : ApiResult → Bytes
  | .client (.read (.ok b)) => b
  | _ => []

/-- The application data that went to `TlsClient::read`. -/
def ApiResult.readData (r : ApiResult) (log : Log) : Bytes :=
  match r with
  | .client (.read _) => appData log
  | _ => []

/-- A `TlsClient::read` did not panic. (A panic inside it loses what it had read.) -/
def ApiResult.ReadReturned : ApiResult → Prop
  | .client (.read r) => r.Returns
  | _ => True

/-! ### What a call lets in -/

def logOf (recs : List Record) : Log := recs.map fun r => (r.contentType.toU8, r.verMajor, r.verMinor, r.fragment)

theorem appData_logOf (recs : List Record) : appData (logOf recs) = appOf recs := by
  induction recs with
  | nil => rfl
  | cons r recs ih =>
    have : appOf (r :: recs) = (if r.contentType = .ApplicationDataTy then r.fragment else []) ++ appOf recs := by
      by_cases h : r.contentType = .ApplicationDataTy <;> simp [appOf, h]
    rw [this, ← ih]
    show (if r.contentType.toU8 = 23 then r.fragment else []) ++ appData (logOf recs) = _
    congr 1
    cases r.contentType <;> rfl

theorem accepts_logged {s s' : TlsReader} {recs : List Record} {m : Mode} {key iv : Bytes} (hk : key.length = 32) (hl : iv.length = 12) (h : TlsReader.Accepts s recs s')
    (hd : s.decryptor = some (.chacha m key)) (hi : s.iv = some iv) (k : Nat) (hc : s.readCount.toNat = k % 2 ^ 64) : Opened key iv k s.reader.stream (logOf recs) := by
  induction h generalizing k with
  | nil => exact .nil
  | @cons s s1 s' ty a b f rec recs hf hs hu h1 h2 h3 _ ih =>
    have e1 := ih (h1.trans hd) (h3.trans hi) (k + 1) (by
      rw [h2, UInt64.toNat_add, hc]; show (k % 2 ^ 64 + 1) % 2 ^ 64 = _; omega)
    obtain ⟨p, rfl, ho⟩ := unprotect_chacha hd hk hi hl hf hu
    rw [hc] at ho
    exact .cons hs hf ho e1

theorem ofCode_code [TlsEnum α] {n : Nat} {a : α} (h : TlsEnum.ofCode n = some a) : n = TlsEnum.code a := by
  have := List.find?_some h
  exact (beq_iff_eq.mp this).symm

theorem origin_from {buf buf' : Bytes} {recs : List Record} {msg : Message} (h : Origin buf recs msg buf') : (ApiResult.message (.ok (some msg))).From (logOf recs) := by
  have happ := h.app
  rw [← appData_logOf] at happ
  cases msg with
  | HandshakeMessage h' =>
    intro r hr
    obtain ⟨rec, h1, rfl⟩ := List.mem_map.mp hr
    show rec.contentType.toU8 = 22
    rw [h.1 rec h1]; rfl
  | ChangeCipherSpecMessage =>
    obtain ⟨pre, r, rfl, -, -, h4, h5⟩ := h
    refine ⟨logOf pre, r.verMajor, r.verMinor, ?_, happ⟩
    have hf : r.fragment = [1] := by
      unfold ccsMessage at h5
      split at h5
      · cases h5
      · rename_i hh
        rw [not_or, not_not, not_not] at hh
        match hr : r.fragment, hh with
        | [x], hh => rw [show x = 1 from hh.2]
        | [], hh => simp at hh
        | _ :: _ :: _, hh => simp at hh
    simp only [logOf, List.map_append, List.map_cons, List.map_nil, h4, hf]
    rfl
  | AlertMessage a =>
    obtain ⟨pre, r, rfl, -, -, h4, h5⟩ := h
    refine ⟨logOf pre, r.verMajor, r.verMinor, r.fragment, ?_, ?_, happ⟩
    · simp only [logOf, List.map_append, List.map_cons, List.map_nil, h4]
      rfl
    · unfold alertMessage at h5
      match hr : r.fragment, h5 with
      | [], h5 => cases h5
      | [_], h5 => cases h5
      | x :: y :: _, h5 =>
        simp only [List.length_cons, List.getD_cons_zero, List.getD_cons_succ] at h5
        rw [if_neg (by omega), if_neg (by omega)] at h5
        split at h5
        · rename_i l d hl hd
          simp only [Alert.new, Res.bind_ok, Res.pure_def, Res.ok.injEq, Message.AlertMessage.injEq] at h5
          subst h5
          simp only [List.take_succ_cons, List.take_zero, List.map_cons, List.map_nil, ofCode_code hl, ofCode_code hd]
        · cases h5
  | ApplicationDataMessage b => exact happ

theorem ReaderCall.accepts {m : Mode} (call : ReaderCall) (hb : (ApiCall.reader call).InBand) {s s' : TlsReader} {x : Res (Option Message)} (hd : s.decryptor.isSome) (hi : s.iv.isSome)
    (h : (call.result m).run s = (x, s')) : ∃ recs, TlsReader.Accepts s recs s' ∧ (ApiResult.message x).From (logOf recs) := by
  have anything : ∀ {s' : TlsReader} {y : Res Message}, (readMessage m).run s = (y, s') → ∃ recs, TlsReader.Accepts s recs s' := by
    intro s' y hr
    cases y with
    | ok msg =>
      obtain ⟨recs, ht, -⟩ := readMessage_inv hr
      exact ⟨recs, ht.accepts⟩
    | err k => obtain ⟨recs, h1, -⟩ := (readMessage_fail hr (by simp)).accepts; exact ⟨recs, h1⟩
    | panic => obtain ⟨recs, h1, -⟩ := (readMessage_fail hr (by simp)).accepts; exact ⟨recs, h1⟩
    | diverge => obtain ⟨recs, h1, -⟩ := (readMessage_fail hr (by simp)).accepts; exact ⟨recs, h1⟩
  have stays : ∀ y : Res (Option Message), y = .panic → (y, s) = (x, s') → ∃ recs, TlsReader.Accepts s recs s' ∧ (ApiResult.message x).From (logOf recs) := by
    rintro y rfl h
    simp only [Prod.mk.injEq] at h
    obtain ⟨rfl, rfl⟩ := h
    exact ⟨[], .nil (List.suffix_refl _) rfl rfl rfl, trivial⟩
  cases call with
  | setDecryptor d =>
    rw [ReaderCall.result, St.bind_run, (C106_set (TlsWriter.new ⟨[], []⟩) s (.chacha m []) d []).2.2.1, if_neg (by cases hh : s.decryptor <;> simp_all)] at h
    exact stays _ rfl h
  | setIv iv =>
    rw [ReaderCall.result, St.bind_run, (C106_set (TlsWriter.new ⟨[], []⟩) s (.chacha m []) (.chacha m []) iv).2.2.2, if_neg (by cases hh : s.iv <;> simp_all)] at h
    exact stays _ rfl h
  | record => exact absurd hb id
  | transport rd => exact absurd hb id
  | message =>
    rw [ReaderCall.result, St.bind_run] at h
    rcases hr : (readMessage m).run s with ⟨y, s1⟩
    rw [hr] at h
    cases y with
    | ok msg =>
      simp only [St.pure_run, Prod.mk.injEq] at h
      obtain ⟨rfl, rfl⟩ := h
      obtain ⟨recs, ht, ho⟩ := readMessage_inv hr
      exact ⟨recs, ht.accepts, origin_from ho⟩
    | err k | panic | diverge =>
      simp only [Prod.mk.injEq] at h
      obtain ⟨rfl, rfl⟩ := h
      obtain ⟨recs, h1⟩ := anything hr
      exact ⟨recs, h1, trivial⟩
  | applicationData =>
    rw [ReaderCall.result, St.bind_run] at h
    rcases hr : (readApplicationData m).run s with ⟨y, s1⟩
    rw [hr] at h
    obtain ⟨recs, h1, h2⟩ := readApplicationData_accepts hr
    cases y with
    | ok d =>
      simp only [St.pure_run, Prod.mk.injEq] at h
      obtain ⟨rfl, rfl⟩ := h
      exact ⟨recs, h1, (appData_logOf recs).trans h2⟩
    | err k | panic | diverge =>
      simp only [Prod.mk.injEq] at h
      obtain ⟨rfl, rfl⟩ := h
      exact ⟨recs, h1, trivial⟩
  | handshake =>
    rw [ReaderCall.result, St.bind_run, readHandshake, St.bind_run] at h
    rcases hr : (readMessage m).run s with ⟨y, s1⟩
    rw [hr] at h
    obtain ⟨recs, h1⟩ := anything hr
    cases y with
    | ok msg =>
      obtain ⟨recs, ht, ho⟩ := readMessage_inv hr
      cases msg with
      | HandshakeMessage hs =>
        simp only [St.pure_run, Prod.mk.injEq] at h
        obtain ⟨rfl, rfl⟩ := h
        exact ⟨recs, ht.accepts, origin_from ho⟩
      | AlertMessage a | ChangeCipherSpecMessage | ApplicationDataMessage d =>
        simp only [St.err_run, Prod.mk.injEq] at h
        obtain ⟨rfl, rfl⟩ := h
        exact ⟨recs, ht.accepts, trivial⟩
    | err k | panic | diverge =>
      simp only [Prod.mk.injEq] at h
      obtain ⟨rfl, rfl⟩ := h
      exact ⟨recs, h1, trivial⟩
  | changeCipherSpec =>
    rw [ReaderCall.result, St.bind_run, readChangeCipherSpec, St.bind_run] at h
    rcases hr : (readMessage m).run s with ⟨y, s1⟩
    rw [hr] at h
    obtain ⟨recs, h1⟩ := anything hr
    cases y with
    | ok msg =>
      obtain ⟨recs, ht, ho⟩ := readMessage_inv hr
      cases msg with
      | ChangeCipherSpecMessage =>
        simp only [St.pure_run, Prod.mk.injEq] at h
        obtain ⟨rfl, rfl⟩ := h
        exact ⟨recs, ht.accepts, origin_from ho⟩
      | AlertMessage a | HandshakeMessage hs | ApplicationDataMessage d =>
        simp only [St.err_run, Prod.mk.injEq] at h
        obtain ⟨rfl, rfl⟩ := h
        exact ⟨recs, ht.accepts, trivial⟩
    | err k | panic | diverge =>
      simp only [Prod.mk.injEq] at h
      obtain ⟨rfl, rfl⟩ := h
      exact ⟨recs, h1, trivial⟩

theorem accepts_keys {s s' : TlsReader} {recs : List Record} (h : TlsReader.Accepts s recs s') : s'.decryptor = s.decryptor ∧ s'.iv = s.iv := by
  induction h with
  | nil _ h1 h2 h3 => exact ⟨h1, h3⟩
  | cons _ _ _ h1 _ h3 _ ih => exact ⟨ih.1.trans h1, ih.2.trans h3⟩

theorem sendTlsAlert_reader (m : Mode) (k : TlsErrorKind) (c : TlsClient) : ((sendTlsAlert m k).run c).2.reader = c.reader ∧ ((sendTlsAlert m k).run c).2.buf = c.buf := by
  obtain ⟨f, hf⟩ := sendTlsAlert_only m k
  rw [hf c]
  exact ⟨rfl, rfl⟩

theorem ApiCall.run_accepts {m : Mode} (call : ApiCall) (hb : call.InBand) {c : TlsClient} (hd : c.reader.decryptor.isSome) (hi : c.reader.iv.isSome)
    (hret : (call.run m c).1.ReadReturned) : ∃ recs, TlsReader.Accepts c.reader recs (call.run m c).2.reader ∧ (call.run m c).1.From (logOf recs) ∧
      c.buf ++ (call.run m c).1.readData (logOf recs) = (call.run m c).1.readBytes ++ (call.run m c).2.buf := by
  have nothing : ∀ {s}, s = c.reader → TlsReader.Accepts c.reader [] s := by rintro _ rfl; exact .nil (List.suffix_refl _) rfl rfl rfl
  cases call with
  | client call =>
    by_cases hr : call.isRead = true
    · cases call with
      | read len =>
        rcases hx : (TlsClient.read m len).run c with ⟨x, c1⟩
        obtain ⟨n, h1, _, _, _, h4⟩ := C22_read m len c c1 x hx
        have hrun : ApiCall.run m c (.client (.read len)) = (.client (.read x), c1) := by simp only [ApiCall.run, Call.run, hx]
        rw [hrun] at hret ⊢
        obtain ⟨recs, a1, a2⟩ := readApp_accepts m n c.reader
        rcases h4 with ⟨out, rfl, h5, h6, _⟩ | ⟨rfl, _⟩ | ⟨rfl, _⟩
        · refine ⟨recs, by rw [h1]; exact a1, trivial, ?_⟩
          show c.buf ++ appData (logOf recs) = out ++ c1.buf
          rw [appData_logOf, a2, h6]
        · exact absurd hret id
        · exact absurd hret id
      | _ => cases hr
    · obtain ⟨f, h1, h2⟩ := Call.run_write m (Bool.eq_false_iff.mpr hr)
      have hrun : ApiCall.run m c (.client call) = (.client (f c.writer).1, { c with writer := (f c.writer).2 }) := by simp only [ApiCall.run, h2]
      rw [hrun]
      have h3 := h1 c.writer
      refine ⟨[], nothing rfl, ?_⟩
      cases hf : (f c.writer).1 with
      | read r => rw [hf] at h3; cases h3
      | write r => exact ⟨rfl, by simp [ApiResult.readData, ApiResult.readBytes]⟩
      | done r => exact ⟨rfl, by simp [ApiResult.readData, ApiResult.readBytes]⟩
  | sendAlert k =>
    obtain ⟨h1, h2⟩ := sendTlsAlert_reader m k c
    exact ⟨[], nothing h1, rfl, by rw [ApiCall.run]; simp only [ApiResult.readData, ApiResult.readBytes, h2]; simp⟩
  | writer w => exact ⟨[], nothing rfl, rfl, by simp [ApiCall.run, ApiResult.readData, ApiResult.readBytes]⟩
  | reader r =>
    rcases hx : (r.result m).run c.reader with ⟨x, s1⟩
    obtain ⟨recs, h1, h2⟩ := r.accepts hb hd hi hx
    have hrun : ApiCall.run m c (.reader r) = (.message x, { c with reader := s1 }) := by simp only [ApiCall.run, hx]
    rw [hrun]
    exact ⟨recs, h1, h2, by simp [ApiResult.readData, ApiResult.readBytes]⟩

theorem runApi_accepts {m : Mode} (calls : List ApiCall) (hb : ∀ call ∈ calls, call.InBand) {c : TlsClient} (hd : c.reader.decryptor.isSome) (hi : c.reader.iv.isSome)
    (hret : ∀ r ∈ (runApi m calls c).1, r.ReadReturned) : ∃ recss : List (List Record), TlsReader.Accepts c.reader recss.flatten (runApi m calls c).2.reader ∧
      List.Forall₂ ApiResult.From (recss.map logOf) (runApi m calls c).1 ∧
      c.buf ++ (List.zipWith ApiResult.readData (runApi m calls c).1 (recss.map logOf)).flatten = (runApi m calls c).1.flatMap ApiResult.readBytes ++ (runApi m calls c).2.buf := by
  induction calls generalizing c with
  | nil => exact ⟨[], .nil (List.suffix_refl _) rfl rfl rfl, .nil, by simp [runApi]⟩
  | cons call calls ih =>
    obtain ⟨recs, h1, h2, h3⟩ := call.run_accepts (m := m) (hb _ (List.mem_cons_self ..)) hd hi (hret _ (List.mem_cons_self ..))
    obtain ⟨k1, k2⟩ := accepts_keys h1
    obtain ⟨recss, i1, i2, i3⟩ := ih (c := (call.run m c).2) (fun k hk => hb k (List.mem_cons_of_mem _ hk)) (by rw [k1]; exact hd) (by rw [k2]; exact hi)
      (fun r hr => hret r (List.mem_cons_of_mem _ hr))
    refine ⟨recs :: recss, by rw [List.flatten_cons]; exact h1.trans i1, .cons h2 i2, ?_⟩
    show c.buf ++ ((call.run m c).1.readData (logOf recs) ++ (List.zipWith ApiResult.readData (runApi m calls (call.run m c).2).1 (recss.map logOf)).flatten) =
      ((call.run m c).1.readBytes ++ (runApi m calls (call.run m c).2).1.flatMap ApiResult.readBytes) ++ (runApi m calls (call.run m c).2).2.buf
    rw [← List.append_assoc, h3, List.append_assoc, i3, List.append_assoc]

/-- C113, receiving: after every successful handshake, whatever the server and the network do, in every history of public calls: each call opened some records in the stream behind the
handshake; all of them together, in the order of the calls, open under the server's key of this session with consecutive numbers, continuing those of the handshake. A message that a call on the
field `reader` handed out is from the records this call opened (a handshake message possibly from earlier ones, too). The bytes handed out by `TlsClient::read` are, in order and without gaps, the
application data of the records its own calls opened; what was opened and not handed out yet is in the client's buffer. -/
theorem C113_received (m : Mode) (rd : Reader) (wr : Writer) (rng : Rng) (c : TlsClient) (h : TlsClient.new m rd wr rng = (.ok (), c)) (calls : List ApiCall)
    (hb : ∀ call ∈ calls, call.InBand) (hret : ∀ r ∈ (runApi m calls c).1, r.ReadReturned) :
    ∃ S clear prot a b protWire pre post, Completed m rd wr rng c S clear prot a b protWire pre post ∧
      ∃ logs : List Log, Opened S.keys.serverKey S.keys.serverIv prot.length c.reader.reader.stream logs.flatten ∧
        List.Forall₂ ApiResult.From logs (runApi m calls c).1 ∧
        (List.zipWith ApiResult.readData (runApi m calls c).1 logs).flatten = (runApi m calls c).1.flatMap ApiResult.readBytes ++ (runApi m calls c).2.buf := by
  obtain ⟨S, clear, prot, a, b, protWire, pre, post, hC⟩ := C27_flight_partial m rd wr rng c h
  obtain ⟨k1, k2, k3, k4⟩ := hC.ready.lengths
  obtain ⟨recss, h1, h2, h3⟩ := runApi_accepts (m := m) calls hb (c := c) (by rw [hC.ready.decryptor]; rfl) (by rw [hC.ready.readerIv]; rfl) hret
  have ho := accepts_logged k2 k4 h1 hC.ready.decryptor hC.ready.readerIv prot.length hC.ready.readCount
  rw [hC.ready.buf, List.nil_append] at h3
  refine ⟨S, clear, prot, a, b, protWire, pre, post, hC, recss.map logOf, ?_, h2, h3⟩
  have : logOf recss.flatten = (recss.map logOf).flatten := by simp only [logOf, List.map_flatten]; rfl
  rw [← this]
  exact ho

/-! ### The hypotheses are met -/

/-- A caller who tries everything: sends data, asks for other keys, sends a handshake record of their own, reports an error, takes a message from the record layer and reads. -/
def mixedCalls (key iv : Bytes) : List ApiCall :=
  [.client (.write [1]), .writer (.setEncryptor (.chacha .release key)), .writer (.setIv iv), .writer (.record ⟨.HandshakeTy, 3, 1, [0, 0, 0, 0]⟩), .sendAlert .InternalError,
    .reader .message, .client (.read 5), .client .close]

example (key iv : Bytes) : ∀ call ∈ mixedCalls key iv, call.InBand := by simp [mixedCalls, ApiCall.InBand]

/-- There is a handshake that succeeds: with every server that follows the protocol. -/
example (m : Mode) (rd : Reader) (wr : Writer) (rng : Rng) (hfa : wr.faults = []) (random block rest : Bytes) (D : Draws rng.bytes random block rest) (V : ServerValues) (hV : V.Conforms)
    (S : Session) (hS : S = V.session random (clientPoint block)) (fs1 fs2 : List Bytes) (hrd : Reply S fs1 fs2 (ofBytes (serverItems S fs2.length [] ++ []) ++ []) rd) :
    ∃ c, TlsClient.new m rd wr rng = (.ok (), c) := by
  obtain ⟨c, h, -⟩ := C96_session m rd wr rng hfa random block rest D V hV S hS fs1 fs2 [] (by simp) (by simp) [] partOfRecord_nil [] (Or.inl rfl) hrd [] (by simp)
  exact ⟨c, h⟩

/-- A record, seven bytes of the next one, and after the error another record with the number that was not used up. -/
example : Numbered 1 [⟨1, 23, 3, 3, [1], none⟩, ⟨2, 23, 3, 3, [2], some 7⟩, ⟨2, 21, 3, 3, [2, 0], none⟩] 3 :=
  .whole rfl rfl (by decide) (.torn rfl rfl (by decide) (.whole rfl rfl (by decide) .nil))

/-- Not in between: a record in the clear, or one with a number left out. -/
example : ¬ ∃ k', Numbered 1 [⟨1, 23, 3, 3, [1], none⟩, ⟨3, 23, 3, 3, [2], none⟩] k' := by
  rintro ⟨k', h⟩
  cases h with
  | whole _ _ _ h =>
    cases h with
    | whole e => simp at e
    | torn _ e => cases e
  | torn _ e => cases e

end Husk
