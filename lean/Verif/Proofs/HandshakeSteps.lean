import Verif.Proofs.KeySchedule
import Verif.Props.ClientIo
import Verif.Props.Ecdhe
/-! The steps of the handshake of the client: what each one writes, and what a step that succeeds has read. -/

namespace Husk

open Item Spec TlsReader

/-! ### Writing one message -/

/-- Writing a message that fits in a record: it goes out as one record, or the transport fails and a part of that record went out. -/
theorem write_one (m : Mode) (ty : ContentType) (data : Bytes) (w : TlsWriter) (hs : w.SealsShort) (h0 : data ≠ []) (hl : data.length ≤ RECORD_MAX_LEN)
    (hn : w.writeCount.toNat + 1 < 2 ^ 64) :
    (∃ c w', (TlsWriter.writeData m ty data).run w = (.ok (), w') ∧ w.Wrote ⟨ty, 3, 3, data⟩ c w') ∨
    (∃ c w' n, (TlsWriter.writeData m ty data).run w = (.err .IoFailure, w') ∧ w.sealed ⟨ty, 3, 3, data⟩ = .ok c ∧
      w'.writer.wire = w.writer.wire ++ (recordBytes ty.toU8 3 3 c).take n ∧ w.writer.faults ≠ [] ∧
      w'.encryptor = w.encryptor ∧ w'.iv = w.iv ∧ w'.writeCount = w.writeCount) := by
  have hw : (TlsWriter.writeData m ty data).run w = ((TlsWriter.writeRecord m ⟨ty, 3, 3, data⟩).run w) := by
    rw [TlsWriter.writeData, chunks_small h0 hl, TlsWriter.writeChunks, Record.new_ok _ _ _ _ hl, St.bind_of_ok (St.lift_run _ _)]
    rw [St.bind_run]
    show _ = (TlsWriter.writeRecord m ⟨ty, 3, 3, data⟩).run w
    simp only [TLS_VERSION]
    rcases (TlsWriter.writeRecord m ⟨ty, 3, 3, data⟩).run w with ⟨x | k | _ | _, w'⟩ <;> rfl
  rw [hw]
  obtain ⟨c, hc, hcl⟩ := hs.seal ⟨ty, 3, 3, data⟩ hl
  have hsame := w.logged_same ⟨ty, 3, 3, data⟩ c
  rw [TlsWriter.writeRecord_run]
  simp only [hc, show ¬ c.length > ENC_RECORD_MAX_LEN by omega, if_false]
  rcases TlsWriter.emit_cases m ⟨ty, 3, 3, data⟩ c (w.logged ⟨ty, 3, 3, data⟩ c) hcl with ⟨w', he, hwire, hf⟩ | ⟨w', n, he, hwire, hf⟩
  · left
    rw [he, TlsWriter.bump_ok m _ (by show (w.logged _ c).writeCount.toNat + 1 < _; rw [hsame.2.2.1]; exact hn)]
    refine ⟨c, _, rfl, ⟨hc, hcl, ?_, rfl, ?_, hsame.2.1, hsame.2.2.2, ?_⟩⟩
    · show w'.wire = _; rw [hwire, hsame.1]
    · show (w.logged _ c).writeCount + 1 = _; rw [hsame.2.2.1]
    · intro h; exact hf (by rw [hsame.1]; exact h)
  · right
    refine ⟨c, _, n, he, rfl, ?_, ?_, hsame.2.1, hsame.2.2.2, hsame.2.2.1⟩
    · show w'.wire = _; rw [hwire, hsame.1]
    · rw [← hsame.1]; exact hf

theorem sealsShort_plain {w : TlsWriter} (h : w.encryptor = none) : w.SealsShort := by
  intro e he; rw [h] at he; cases he

theorem sealed_plain {w : TlsWriter} (h : w.encryptor = none) (r : Record) : w.sealed r = .ok r.fragment := by
  rw [TlsWriter.sealed, h]

/-- Under the keys of a connection a record is the protected record of RFC 7905. -/
theorem sealed_chacha {w : TlsWriter} {m : Mode} {key iv : Bytes} (h : w.encryptor = some (.chacha m key)) (hk : key.length = 32) (hi : w.iv = some iv)
    (hl : iv.length = 12) (ty : ContentType) (f : Bytes) (hf : f.length ≤ RECORD_MAX_LEN) :
    w.sealed ⟨ty, 3, 3, f⟩ = .ok (Spec.Aead.sealMsg key (recordNonce iv w.writeCount.toNat) (recordAad w.writeCount.toNat ty.toU8 3 3 f.length) f) := by
  rw [TlsWriter.sealed, h]
  have hn : w.nonce = recordNonce iv w.writeCount.toNat := by
    rw [TlsWriter.nonce_eq, hi, nonceFor, xorIv_spec _ _ hl]
  have hnl : w.nonce.length = 12 := by rw [TlsWriter.nonce_eq, nonceFor_length]
  show Aead.encrypt m key w.nonce f (w.ad ⟨ty, 3, 3, f⟩) = _
  rw [TlsWriter.ad_eq, C39_encrypt_is_rfc8439 m key _ f _ hk hnl (by have : RECORD_MAX_LEN = 16384 := rfl; omega), hn]

/-! ### Reading a handshake message -/

/-- A message taken from the buffer is its first part: a complete message that decodes. -/
theorem takes_inv {buf rest : Bytes} {h : Handshake} (ht : TakesMessage buf h rest) :
    ∃ ty body, body.length < 2 ^ 24 ∧ buf = handshakeBytes ty body ++ rest ∧ (TlsItem.read (α := Handshake)).run (handshakeBytes ty body) = (.ok h, []) := by
  rw [TakesMessage, HandshakeBuffer.getMessage] at ht
  dsimp only at ht
  split at ht
  · cases ht
  · rename_i h4
    split at ht
    · cases ht
    · rename_i hw
      have hlen : ((buf.drop 1).take 3).length = 3 := by rw [List.length_take, List.length_drop]; omega
      have hlt : beNat ((buf.drop 1).take 3) < 2 ^ 24 := by
        have := beNat_lt ((buf.drop 1).take 3)
        rw [hlen] at this
        exact this
      rcases hr : (TlsItem.read (α := Handshake)).run (buf.take (beNat ((buf.drop 1).take 3) + 4)) with ⟨x, r⟩
      rw [hr] at ht
      cases x with
      | ok h' =>
        simp only [Prod.mk.injEq, Res.ok.injEq, Option.some.injEq, HandshakeBuffer.mk.injEq] at ht
        obtain ⟨rfl, rfl⟩ := ht
        obtain ⟨rfl, -⟩ := Handshake.read_inv hr
        match buf, h4, hw, hlen, hlt, hr with
        | ty :: b, h4, hw, hlen, hlt, hr =>
          simp only [List.drop_succ_cons, List.drop_zero, List.length_cons] at h4 hw hlen hlt hr ⊢
          have hb : beBytes 3 (beNat (b.take 3)) = b.take 3 := by
            have := beBytes_beNat (b.take 3)
            rw [hlen] at this
            exact this
          have hbody : ((b.drop 3).take (beNat (b.take 3))).length = beNat (b.take 3) := by
            rw [List.length_take, List.length_drop]; omega
          have he : handshakeBytes ty ((b.drop 3).take (beNat (b.take 3))) = (ty :: b).take (beNat (b.take 3) + 4) := by
            rw [handshakeBytes, hbody, hb, List.take_succ_cons, show beNat (b.take 3) + 3 = 3 + beNat (b.take 3) by omega, List.take_add]
          refine ⟨ty, (b.drop 3).take (beNat (b.take 3)), by rw [hbody]; exact hlt, ?_, by rw [he]; exact hr⟩
          rw [he]
          exact (List.take_append_drop _ _).symm
      | err k => cases ht
      | panic => cases ht
      | diverge => cases ht

/-- The bytes of a message that can be written. -/
def bytesOf (h : Handshake) : Bytes :=
  match TlsItem.write h with
  | .ok b => b
  | _ => []

theorem bytesOf_eq {h : Handshake} {b : Bytes} (e : TlsItem.write h = .ok b) : bytesOf h = b := by rw [bytesOf, e]

/-- What a message taken from the buffer is when written again: not longer than what was received. -/
theorem takes_write {buf rest : Bytes} {h : Handshake} (ht : TakesMessage buf h rest) {b : Bytes} (hb : TlsItem.write h = .ok b) : b.length < 2 ^ 24 + 4 := by
  obtain ⟨ty, body, hl, _, hr⟩ := takes_inv ht
  obtain ⟨-, n, body0, e1, _, _, _, body1, junk, f1, f2, f3, _⟩ := Handshake.read_inv hr
  rw [f3 b hb]
  have h1 := congrArg List.length e1
  have h2 := congrArg List.length f1
  simp only [List.length_append, writeNum_length, handshakeBytes, List.length_cons, beBytes_length, List.length_nil] at h1 h2 ⊢
  omega

namespace TlsVec

theorem writeItems_ok {α : Type} [TlsItem α] (h : ∀ x : α, ∃ b, TlsItem.write x = .ok b) (xs : List α) : ∃ b, writeItems xs = .ok b := by
  induction xs with
  | nil => exact ⟨[], rfl⟩
  | cons x xs ih =>
    obtain ⟨b, hb⟩ := h x
    obtain ⟨bs, hbs⟩ := ih
    exact ⟨b ++ bs, by rw [writeItems, hb, Res.bind_ok, hbs, Res.bind_ok]; rfl⟩

theorem write_ok {α : Type} [TlsItem α] {min max : Nat} (h : ∀ x : α, ∃ b, TlsItem.write x = .ok b) (v : TlsVec α min max) : ∃ b, TlsItem.write v = .ok b := by
  obtain ⟨b, hb⟩ := writeItems_ok h v.items
  exact ⟨writeNum (prefixLen max) (sizes v.items) ++ b, by show (writeItems v.items >>= _) = _; rw [hb, Res.bind_ok]; rfl⟩

end TlsVec

theorem writeBody_ok {α : Type} [TlsItem α] (num : Nat) (x : α) (h : ∃ b, TlsItem.write x = .ok b) : ∃ b, Handshake.writeBody num x = .ok b := by
  obtain ⟨b, hb⟩ := h
  exact ⟨writeNum 1 num ++ writeNum 3 (TlsItem.size x) ++ b, by rw [Handshake.writeBody, hb, Res.bind_ok]; rfl⟩

theorem write_extension_ok (e : Extension) : ∃ b, TlsItem.write e = .ok b := by
  have wrap : ∀ (k n : Nat) (x : Res Bytes), (∃ b, x = .ok b) → ∃ b, (x >>= fun b => (pure (writeNum 2 k ++ writeNum 2 n ++ b) : Res Bytes)) = .ok b := by
    rintro k n x ⟨b, rfl⟩
    exact ⟨_, rfl⟩
  cases e with
  | elliptic_curves v => exact wrap _ _ _ (TlsVec.write_ok (fun x => ⟨_, rfl⟩) v)
  | ec_point_formats v => exact wrap _ _ _ (TlsVec.write_ok (fun x => ⟨_, rfl⟩) v)
  | signature_algorithms v => exact wrap _ _ _ (TlsVec.write_ok (fun x => ⟨_, rfl⟩) v)
  | Unknown ty data => exact ⟨_, rfl⟩

theorem write_extensions_ok (e : Option ExtensionVec) : ∃ b, TlsItem.write e = .ok b := by
  cases e with
  | none => exact ⟨_, rfl⟩
  | some v => exact TlsVec.write_ok write_extension_ok v

theorem write_serverHello_ok (sh : ServerHello) (h : sh.cipherSuite = TlsClient.suite) : ∃ b, TlsItem.write (Handshake.server_hello sh) = .ok b := by
  apply writeBody_ok 2 sh
  obtain ⟨b3, h3⟩ := TlsVec.write_ok (fun x : UInt8 => ⟨_, rfl⟩) sh.sessionId
  obtain ⟨b6, h6⟩ := write_extensions_ok sh.extensions
  obtain ⟨v, r, sid, cs, cm, ext⟩ := sh
  simp only at h h3 h6
  subst h
  obtain ⟨b1, h1⟩ : ∃ b, TlsItem.write v = .ok b := ⟨_, rfl⟩
  obtain ⟨b2, h2⟩ : ∃ b, TlsItem.write r = .ok b := ⟨_, rfl⟩
  obtain ⟨b4, h4⟩ : ∃ b, TlsItem.write TlsClient.suite = .ok b := ⟨_, rfl⟩
  obtain ⟨b5, h5⟩ : ∃ b, TlsItem.write cm = .ok b := ⟨_, rfl⟩
  refine ⟨b1 ++ (b2 ++ (b3 ++ (b4 ++ (b5 ++ b6)))), ?_⟩
  show (do
    let b1 ← TlsItem.write v
    let b2 ← TlsItem.write r
    let b3 ← TlsItem.write sid
    let b4 ← TlsItem.write TlsClient.suite
    let b5 ← TlsItem.write cm
    let b6 ← TlsItem.write ext
    return b1 ++ (b2 ++ (b3 ++ (b4 ++ (b5 ++ b6)))) : Res Bytes) = _
  rw [h1, h2, h3, h4, h5, h6]
  rfl

theorem write_certificate_ok (certs : CertificateList) : ∃ b, TlsItem.write (Handshake.certificate certs) = .ok b :=
  writeBody_ok 11 certs (TlsVec.write_ok (fun x => TlsVec.write_ok (fun _ => ⟨_, rfl⟩) x) certs)

theorem write_serverKeyExchange_ok (d : ObscureData) : ∃ b, TlsItem.write (Handshake.server_key_exchange d) = .ok b := writeBody_ok 12 d ⟨_, rfl⟩

theorem write_serverHelloDone : TlsItem.write (Handshake.server_hello_done {}) = .ok (handshakeBytes 14 []) := rfl

/-! ### `expect!` -/

namespace TlsClient

theorem readHandshake_inv {m : Mode} {s s' : TlsReader} {h : Handshake} (e : (readHandshake m).run s = (.ok h, s')) :
    (readMessage m).run s = (.ok (.HandshakeMessage h), s') := by
  obtain ⟨msg, s1, h1, h2⟩ := St.bind_eq_ok e
  cases msg <;> simp only [St.pure_run, St.err_run, Prod.mk.injEq, Res.ok.injEq, reduceCtorEq, false_and] at h2
  rw [h1, h2.1, h2.2]

theorem readHandshake_ok {m : Mode} {s s' : TlsReader} {h : Handshake} (e : (readMessage m).run s = (.ok (.HandshakeMessage h), s')) :
    (readHandshake m).run s = (.ok h, s') := by
  rw [readHandshake, St.bind_of_ok e, St.pure_run]

theorem readChangeCipherSpec_inv {m : Mode} {s s' : TlsReader} {u : Unit} (e : (readChangeCipherSpec m).run s = (.ok u, s')) :
    (readMessage m).run s = (.ok .ChangeCipherSpecMessage, s') := by
  obtain ⟨msg, s1, h1, h2⟩ := St.bind_eq_ok e
  cases msg <;> simp only [St.pure_run, St.err_run, Prod.mk.injEq, Res.ok.injEq, reduceCtorEq, false_and] at h2
  rw [h1, h2.2]

theorem readChangeCipherSpec_ok {m : Mode} {s s' : TlsReader} (e : (readMessage m).run s = (.ok .ChangeCipherSpecMessage, s')) :
    (readChangeCipherSpec m).run s = (.ok (), s') := by
  rw [readChangeCipherSpec, St.bind_of_ok e, St.pure_run]

theorem expectServerHello_iff {m : Mode} {s s' : TlsReader} {d : ServerHello} :
    (expectServerHello m).run s = (.ok d, s') ↔ (readMessage m).run s = (.ok (.HandshakeMessage (.server_hello d)), s') := by
  constructor
  · intro e
    obtain ⟨msg, s1, h1, h2⟩ := St.bind_eq_ok e
    have h1 := readHandshake_inv h1
    cases msg <;> simp only [St.pure_run, St.err_run, Prod.mk.injEq, Res.ok.injEq, reduceCtorEq, false_and] at h2
    rw [h1, h2.1, h2.2]
  · intro e
    rw [expectServerHello, St.bind_of_ok (readHandshake_ok e), St.pure_run]

theorem expectCertificate_iff {m : Mode} {s s' : TlsReader} {d : CertificateList} :
    (expectCertificate m).run s = (.ok d, s') ↔ (readMessage m).run s = (.ok (.HandshakeMessage (.certificate d)), s') := by
  constructor
  · intro e
    obtain ⟨msg, s1, h1, h2⟩ := St.bind_eq_ok e
    have h1 := readHandshake_inv h1
    cases msg <;> simp only [St.pure_run, St.err_run, Prod.mk.injEq, Res.ok.injEq, reduceCtorEq, false_and] at h2
    rw [h1, h2.1, h2.2]
  · intro e
    rw [expectCertificate, St.bind_of_ok (readHandshake_ok e), St.pure_run]

theorem expectServerKeyExchange_iff {m : Mode} {s s' : TlsReader} {d : ObscureData} :
    (expectServerKeyExchange m).run s = (.ok d, s') ↔ (readMessage m).run s = (.ok (.HandshakeMessage (.server_key_exchange d)), s') := by
  constructor
  · intro e
    obtain ⟨msg, s1, h1, h2⟩ := St.bind_eq_ok e
    have h1 := readHandshake_inv h1
    cases msg <;> simp only [St.pure_run, St.err_run, Prod.mk.injEq, Res.ok.injEq, reduceCtorEq, false_and] at h2
    rw [h1, h2.1, h2.2]
  · intro e
    rw [expectServerKeyExchange, St.bind_of_ok (readHandshake_ok e), St.pure_run]

theorem expectServerHelloDone_iff {m : Mode} {s s' : TlsReader} {d : DummyItem} :
    (expectServerHelloDone m).run s = (.ok d, s') ↔ (readMessage m).run s = (.ok (.HandshakeMessage (.server_hello_done d)), s') := by
  constructor
  · intro e
    obtain ⟨msg, s1, h1, h2⟩ := St.bind_eq_ok e
    have h1 := readHandshake_inv h1
    cases msg <;> simp only [St.pure_run, St.err_run, Prod.mk.injEq, Res.ok.injEq, reduceCtorEq, false_and] at h2
    rw [h1, h2.2]
  · intro e
    rw [expectServerHelloDone, St.bind_of_ok (readHandshake_ok e), St.pure_run]

theorem expectFinished_iff {m : Mode} {s s' : TlsReader} {d : VerifyData} :
    (expectFinished m).run s = (.ok d, s') ↔ (readMessage m).run s = (.ok (.HandshakeMessage (.finished d)), s') := by
  constructor
  · intro e
    obtain ⟨msg, s1, h1, h2⟩ := St.bind_eq_ok e
    have h1 := readHandshake_inv h1
    cases msg <;> simp only [St.pure_run, St.err_run, Prod.mk.injEq, Res.ok.injEq, reduceCtorEq, false_and] at h2
    rw [h1, h2.1, h2.2]
  · intro e
    rw [expectFinished, St.bind_of_ok (readHandshake_ok e), St.pure_run]

/-! ### Steps -/

theorem onReader_run (x : St TlsReader α) (c : TlsClient) : (onReader x).run c = ((x.run c.reader).1, { c with reader := (x.run c.reader).2 }) := rfl
theorem onWriter_run (x : St TlsWriter α) (c : TlsClient) : (onWriter x).run c = ((x.run c.writer).1, { c with writer := (x.run c.writer).2 }) := rfl
theorem onRng_run (x : St Rng α) (c : TlsClient) : (onRng x).run c = ((x.run c.rng).1, { c with rng := (x.run c.rng).2 }) := rfl

theorem onReader_inv {x : St TlsReader α} {c c' : TlsClient} {a : Res α} (h : (onReader x).run c = (a, c')) : ∃ s, x.run c.reader = (a, s) ∧ c' = { c with reader := s } := by
  rw [onReader_run] at h; exact ⟨_, Prod.ext (Prod.mk.inj h).1 rfl, (Prod.mk.inj h).2.symm⟩
theorem onWriter_inv {x : St TlsWriter α} {c c' : TlsClient} {a : Res α} (h : (onWriter x).run c = (a, c')) : ∃ s, x.run c.writer = (a, s) ∧ c' = { c with writer := s } := by
  rw [onWriter_run] at h; exact ⟨_, Prod.ext (Prod.mk.inj h).1 rfl, (Prod.mk.inj h).2.symm⟩
theorem onRng_inv {x : St Rng α} {c c' : TlsClient} {a : Res α} (h : (onRng x).run c = (a, c')) : ∃ s, x.run c.rng = (a, s) ∧ c' = { c with rng := s } := by
  rw [onRng_run] at h; exact ⟨_, Prod.ext (Prod.mk.inj h).1 rfl, (Prod.mk.inj h).2.symm⟩

theorem onReader_ok {x : St TlsReader α} {c : TlsClient} {a : Res α} {s : TlsReader} (h : x.run c.reader = (a, s)) : (onReader x).run c = (a, { c with reader := s }) := by
  rw [onReader_run, h]
theorem onWriter_ok {x : St TlsWriter α} {c : TlsClient} {a : Res α} {s : TlsWriter} (h : x.run c.writer = (a, s)) : (onWriter x).run c = (a, { c with writer := s }) := by
  rw [onWriter_run, h]
theorem onRng_ok {x : St Rng α} {c : TlsClient} {a : Res α} {s : Rng} (h : x.run c.rng = (a, s)) : (onRng x).run c = (a, { c with rng := s }) := by
  rw [onRng_run, h]

end TlsClient
end Husk
