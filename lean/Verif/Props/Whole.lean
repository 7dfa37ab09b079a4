import Verif.Props.Behaviour
import Verif.Props.Forgery
/-! C110: a whole program — `TlsClient::new`, then any calls — over any transport, as a relation that has exactly one value. -/

namespace Husk

open Item Spec TlsReader TlsClient

/-! ### Specification -/

/-- A record in the clear is passed on in five buffers, too. -/
def clearPieces (ty : UInt8) (fragment : Bytes) : List Bytes := [[ty], [3], [3], beBytes 2 fragment.length, fragment]

/-- The client's second flight: ClientKeyExchange, ChangeCipherSpec and, under the new keys, Finished. -/
def secondPieces (point : Bytes) (k : Keys) (verifyData : Bytes) : List Bytes :=
  clearPieces 22 (clientKeyExchangeBytes point) ++ (clearPieces 20 [1] ++ recordPieces k.clientKey k.clientIv 0 22 (finishedBytes verifyData))

/-- An error other than IoFailure is told to the server with the alert for it (`pieces` makes a record of it), and the error of a failure to do so is returned instead. The result, and the
bytes sent. -/
def withAlert (pieces : Bytes → List Bytes) : Res Unit → List (Option Nat) → Res Unit × Bytes
  | .err k, fs => if k = .IoFailure then (.err k, []) else
    match sendPieces (pieces [2, alertCode k]) fs with
    | (b, ok, _) => (.err (if ok then k else .IoFailure), b)
  | x, _ => (x, [])

/-- The server's first flight does not come to its end. -/
inductive FlightFails (m : Mode) (rd : Reader) (rest : Bytes) : Res Unit → Prop
  | hello {x : Res Message} {s1 : TlsReader} : Comes (TlsReader.new rd) x s1 → (∀ d, x ≠ .ok (.HandshakeMessage (.server_hello d))) → FlightFails m rd rest (refused x)
  | parameters {sh : ServerHello} {s1 : TlsReader} : Comes (TlsReader.new rd) (.ok (.HandshakeMessage (.server_hello sh))) s1 → ¬ Agreed sh → FlightFails m rd rest (.err .IllegalParameter)
  | certificate {sh : ServerHello} {x : Res Message} {s1 s2 : TlsReader} : Comes (TlsReader.new rd) (.ok (.HandshakeMessage (.server_hello sh))) s1 → Agreed sh → Comes s1 x s2 →
      (∀ d, x ≠ .ok (.HandshakeMessage (.certificate d))) → FlightFails m rd rest (refused x)
  | keyExchange {sh : ServerHello} {certs : CertificateList} {x : Res Message} {s1 s2 s3 : TlsReader} : Comes (TlsReader.new rd) (.ok (.HandshakeMessage (.server_hello sh))) s1 → Agreed sh →
      Comes s1 (.ok (.HandshakeMessage (.certificate certs))) s2 → Comes s2 x s3 → (∀ d, x ≠ .ok (.HandshakeMessage (.server_key_exchange d))) → FlightFails m rd rest (refused x)
  | keys {sh : ServerHello} {certs : CertificateList} {ske : ObscureData} {s1 s2 s3 : TlsReader} {y : Res (Bytes × Bytes)} {rng' : Rng} :
      Comes (TlsReader.new rd) (.ok (.HandshakeMessage (.server_hello sh))) s1 → Agreed sh → Comes s1 (.ok (.HandshakeMessage (.certificate certs))) s2 →
      Comes s2 (.ok (.HandshakeMessage (.server_key_exchange ske))) s3 → (Ecdhe.computeKeys m ske.data).run ⟨rest⟩ = (y, rng') → (∀ k, y ≠ .ok k) →
      FlightFails m rd rest (y >>= fun _ => .ok ())
  | done {sh : ServerHello} {certs : CertificateList} {ske : ObscureData} {x : Res Message} {s1 s2 s3 s4 : TlsReader} {k : Bytes × Bytes} {rng' : Rng} :
      Comes (TlsReader.new rd) (.ok (.HandshakeMessage (.server_hello sh))) s1 → Agreed sh → Comes s1 (.ok (.HandshakeMessage (.certificate certs))) s2 →
      Comes s2 (.ok (.HandshakeMessage (.server_key_exchange ske))) s3 → (Ecdhe.computeKeys m ske.data).run ⟨rest⟩ = (.ok k, rng') →
      Comes s3 x s4 → (∀ d, x ≠ .ok (.HandshakeMessage (.server_hello_done d))) → FlightFails m rd rest (refused x)

/-- Its second flight does not come to its end; the first one was `f` and left `s`. -/
inductive LastFails (m : Mode) (cr pub : Bytes) (f : ServerFlight) (s : TlsReader) : Res Unit → Prop
  | change {s1 : TlsReader} {x : Res Message} : Comes { s with iv := some (f.keys cr).serverIv } x s1 → (∀ msg, x ≠ .ok msg) → LastFails m cr pub f s (refused x)
  | noChange {s1 : TlsReader} {msg : Message} : Comes { s with iv := some (f.keys cr).serverIv } (.ok msg) s1 → msg ≠ .ChangeCipherSpecMessage → LastFails m cr pub f s (.err .UnexpectedMessage)
  | finished {s1 s2 : TlsReader} {x : Res Message} : Comes { s with iv := some (f.keys cr).serverIv } (.ok .ChangeCipherSpecMessage) s1 → Comes (keyed m s1 (f.keys cr).serverKey) x s2 →
      (∀ d, x ≠ .ok (.HandshakeMessage (.finished d))) → LastFails m cr pub f s (refused x)
  | verify {s1 s2 : TlsReader} {vd : Bytes} : Comes { s with iv := some (f.keys cr).serverIv } (.ok .ChangeCipherSpecMessage) s1 →
      Comes (keyed m s1 (f.keys cr).serverKey) (.ok (.HandshakeMessage (.finished ⟨vd⟩))) s2 → vd ≠ f.serverVerify cr pub → LastFails m cr pub f s (.err .DecryptError)

/-- What a program sees and sends that makes a connection over a transport which gives what is on `rd` and fails to write as `fs` says, and then the given calls; the client's random bytes
are `cr` and then `rest`. The result of `new`, the results of the calls, the bytes on the wire. -/
inductive Plays (m : Mode) (rd : Reader) (cr rest : Bytes) (fs : List (Option Nat)) (calls : List Call) : Res Unit → List CallResult → Bytes → Prop
  /-- The ClientHello is not sent. -/
  | notBegun {b : Bytes} {fs1 : List (Option Nat)} : sendPieces (clearPieces 22 (clientHelloBytes cr)) fs = (b, false, fs1) → Plays m rd cr rest fs calls (.err .IoFailure) [] b
  /-- The server's first flight is not as it should be. -/
  | refused {b : Bytes} {fs1 : List (Option Nat)} {x : Res Unit} : sendPieces (clearPieces 22 (clientHelloBytes cr)) fs = (b, true, fs1) → FlightFails m rd rest x →
      Plays m rd cr rest fs calls (withAlert (clearPieces 21) x fs1).1 [] (b ++ (withAlert (clearPieces 21) x fs1).2)
  /-- The client's second flight is not sent. -/
  | notSent {b b2 : Bytes} {fs1 fs2 : List (Option Nat)} {f : ServerFlight} {s : TlsReader} {rng' : Rng} {pub : Bytes} :
      sendPieces (clearPieces 22 (clientHelloBytes cr)) fs = (b, true, fs1) → FlightComes m rd rest f s rng' → f.keyData = 65 :: pub →
      sendPieces (secondPieces pub (f.keys cr) (f.clientVerify cr pub)) fs1 = (b2, false, fs2) → Plays m rd cr rest fs calls (.err .IoFailure) [] (b ++ b2)
  /-- The server's second flight is not as it should be. -/
  | failed {b b2 : Bytes} {fs1 fs2 : List (Option Nat)} {f : ServerFlight} {s : TlsReader} {rng' : Rng} {pub : Bytes} {x : Res Unit} :
      sendPieces (clearPieces 22 (clientHelloBytes cr)) fs = (b, true, fs1) → FlightComes m rd rest f s rng' → f.keyData = 65 :: pub →
      sendPieces (secondPieces pub (f.keys cr) (f.clientVerify cr pub)) fs1 = (b2, true, fs2) → LastFails m cr pub f s x →
      Plays m rd cr rest fs calls (withAlert (recordPieces (f.keys cr).clientKey (f.keys cr).clientIv 1 21) x fs2).1 []
        (b ++ (b2 ++ (withAlert (recordPieces (f.keys cr).clientKey (f.keys cr).clientIv 1 21) x fs2).2))
  /-- All is well; then what arrives on the rest of the stream and the calls decide. -/
  | connected {b b2 data out : Bytes} {fs1 fs2 : List (Option Nat)} {f : ServerFlight} {s s1 s2 s3 : TlsReader} {rng' : Rng} {pub : Bytes} {e : Halt} {rs : List CallResult} :
      sendPieces (clearPieces 22 (clientHelloBytes cr)) fs = (b, true, fs1) → FlightComes m rd rest f s rng' → f.keyData = 65 :: pub →
      sendPieces (secondPieces pub (f.keys cr) (f.clientVerify cr pub)) fs1 = (b2, true, fs2) → Comes { s with iv := some (f.keys cr).serverIv } (.ok .ChangeCipherSpecMessage) s1 →
      Comes (keyed m s1 (f.keys cr).serverKey) (.ok (.HandshakeMessage (.finished ⟨f.serverVerify cr pub⟩))) s2 → Arrives s2 data e s3 →
      Behaves (f.keys cr).clientKey (f.keys cr).clientIv data e s3 1 fs2 calls rs out → Plays m rd cr rest fs calls (.ok ()) rs (b ++ (b2 ++ out))

/-- The program. -/
def runProgram (m : Mode) (rd : Reader) (wr : Writer) (rng : Rng) (calls : List Call) : Res Unit × List CallResult × TlsClient :=
  match TlsClient.new m rd wr rng with
  | (.ok (), c) => (.ok (), runSession m calls c)
  | (x, c) => (x, [], c)

/-! ### Proof: writing -/

theorem sendPieces_append (ps qs : List Bytes) (fs : List (Option Nat)) : sendPieces (ps ++ qs) fs =
    match sendPieces ps fs with
    | (b, true, fs) => (b ++ (sendPieces qs fs).1, (sendPieces qs fs).2)
    | (b, false, fs) => (b, false, fs) := by
  induction ps generalizing fs with
  | nil => rfl
  | cons p ps ih =>
    rw [List.cons_append]
    simp only [sendPieces]
    rcases sendPiece p fs with ⟨b, ok, fs1⟩
    cases ok with
    | false => rfl
    | true =>
      simp only
      rw [ih fs1]
      rcases sendPieces ps fs1 with ⟨b2, ok2, fs2⟩
      cases ok2 with
      | false => rfl
      | true => simp only [List.append_assoc]

theorem beBytes2_ne (n : Nat) : beBytes 2 n ≠ [] := by
  intro h
  have := congrArg List.length h
  simp at this

/-- A record in the clear. -/
theorem writeClear (m : Mode) {w : TlsWriter} (he : w.encryptor = none) (hn : w.writeCount.toNat + 1 < 2 ^ 64) (ty : ContentType) (f : Bytes) (h0 : f ≠ []) (hf : f.length ≤ RECORD_MAX_LEN)
    {b : Bytes} {ok : Bool} {fs : List (Option Nat)} (h : sendPieces (clearPieces ty.toU8 f) w.writer.faults = (b, ok, fs)) :
    ∃ w', (TlsWriter.writeData m ty f).run w = (if ok then .ok () else .err .IoFailure, w') ∧ w'.writer = ⟨w.writer.wire ++ b, fs⟩ ∧ w'.encryptor = none ∧ w'.iv = w.iv ∧
      w'.writeCount.toNat ≤ w.writeCount.toNat + 1 := by
  have hE : ENC_RECORD_MAX_LEN = 18432 := rfl
  have hR : RECORD_MAX_LEN = 16384 := rfl
  have hw : (TlsWriter.writeData m ty f).run w = ((TlsWriter.writeRecord m ⟨ty, 3, 3, f⟩).run w) := by
    rw [TlsWriter.writeData, chunks_small h0 hf, TlsWriter.writeChunks, Record.new_ok _ _ _ _ hf, St.bind_of_ok (St.lift_run _ _), St.bind_run]
    show _ = (TlsWriter.writeRecord m ⟨ty, 3, 3, f⟩).run w
    simp only [TLS_VERSION]
    rcases (TlsWriter.writeRecord m ⟨ty, 3, 3, f⟩).run w with ⟨x | k | _ | _, w'⟩ <;> rfl
  have e : TlsWriter.emit m ⟨ty, 3, 3, f⟩ f = emitPieces m (clearPieces ty.toU8 f) := by
    simp only [emitPieces, clearPieces]
    rw [← Writer.transmute_be16 f.length (by omega)]
    rw [show ([ty.toU8] : Bytes) = Util.transmute 1 ty.toU8.toNat from (Writer.transmute_u8 _).symm, show ([3] : Bytes) = Util.transmute 1 (3 : UInt8).toNat from (Writer.transmute_u8 3).symm]
    rfl
  have hne : ∀ p ∈ clearPieces ty.toU8 f, p ≠ [] := by
    intro p hp
    simp only [clearPieces, List.mem_cons, List.not_mem_nil, or_false] at hp
    rcases hp with rfl | rfl | rfl | rfl | rfl
    · simp
    · simp
    · simp
    · exact beBytes2_ne _
    · exact h0
  obtain ⟨l1, l2, l3, l4⟩ := TlsWriter.logged_same w ⟨ty, 3, 3, f⟩ f
  rw [hw, TlsWriter.writeRecord_run, sealed_plain he]
  simp only
  rw [if_neg (by omega), e, emitPieces_run m _ hne _ (by rw [l1, h]), l1]
  have h1 : (1 : UInt64).toNat = 1 := rfl
  cases ok with
  | true =>
    rw [if_pos rfl, TlsWriter.bump_ok _ _ (by simp only [l3]; exact hn)]
    refine ⟨{ w.logged ⟨ty, 3, 3, f⟩ f with writer := ⟨w.writer.wire ++ b, fs⟩, writeCount := (w.logged ⟨ty, 3, 3, f⟩ f).writeCount + 1 }, rfl, rfl, l2.trans he, l4, ?_⟩
    simp only [l3, UInt64.toNat_add, h1]; omega
  | false => exact ⟨{ w.logged ⟨ty, 3, 3, f⟩ f with writer := ⟨w.writer.wire ++ b, fs⟩ }, by simp, rfl, l2.trans he, l4, by simp only [l3]; omega⟩

/-- A record under the keys. -/
theorem writeKeyed {m : Mode} {key iv : Bytes} {k : Nat} {w : TlsWriter} (hk : key.length = 32) (hi : iv.length = 12) (hw : Keyed m key iv k w) (hn : k + 1 < 2 ^ 64) (ty : ContentType) (f : Bytes)
    (h0 : f ≠ []) (hf : f.length ≤ RECORD_MAX_LEN) {b : Bytes} {ok : Bool} {fs : List (Option Nat)} (h : sendPieces (recordPieces key iv k ty.toU8 f) w.writer.faults = (b, ok, fs)) :
    ∃ w', (TlsWriter.writeData m ty f).run w = (if ok then .ok () else .err .IoFailure, w') ∧ w'.writer = ⟨w.writer.wire ++ b, fs⟩ ∧ Keyed m key iv (if ok then k + 1 else k) w' := by
  rw [TlsWriter.writeData, chunks_small h0 hf]
  refine writeChunks_sends hk hi ty [f] hw hn (by intro c hc; rw [List.mem_singleton.mp hc]; exact hf) ?_
  simp only [List.map_cons, List.map_nil, sendItems, h]
  cases ok <;> simp

/-- A writer passes on records of a type, made of `pieces`. -/
def CanSend (m : Mode) (w : TlsWriter) (ty : ContentType) (pieces : Bytes → List Bytes) : Prop :=
  ∀ f : Bytes, f ≠ [] → f.length ≤ RECORD_MAX_LEN → ∀ b ok fs, sendPieces (pieces f) w.writer.faults = (b, ok, fs) →
    ∃ w', (TlsWriter.writeData m ty f).run w = (if ok then .ok () else .err .IoFailure, w') ∧ w'.writer = ⟨w.writer.wire ++ b, fs⟩

theorem writeHandshake_of {m : Mode} {h : Handshake} {data : Bytes} (hd : TlsItem.write h = .ok data) (w : TlsWriter) :
    (TlsWriter.writeHandshake m h).run w = (TlsWriter.writeData m .HandshakeTy data).run w := by
  rw [TlsWriter.writeHandshake, hd, St.bind_of_ok (St.lift_run _ _)]

/-- How `new` ends, from how the handshake ends. -/
theorem new_alert {m : Mode} {rd : Reader} {wr : Writer} {rng : Rng} {x : Res Unit} {c : TlsClient} (h : (handshake m).run (fresh rd wr rng) = (x, c)) {pieces : Bytes → List Bytes}
    (hs : CanSend m c.writer .AlertTy pieces) : (TlsClient.new m rd wr rng).1 = (withAlert pieces x c.writer.writer.faults).1 ∧
      (TlsClient.new m rd wr rng).2.writer.writer.wire = c.writer.writer.wire ++ (withAlert pieces x c.writer.writer.faults).2 := by
  rw [new_run, h]
  cases x with
  | err k =>
    by_cases hk : k = .IoFailure
    · subst hk
      simp only [sendAlert_io, withAlert, if_true]
      exact ⟨trivial, (List.append_nil _).symm⟩
    · rcases hp : sendPieces (pieces [2, alertCode k]) c.writer.writer.faults with ⟨b, ok, fs⟩
      obtain ⟨w', g1, g2⟩ := hs [2, alertCode k] (by simp) (show 2 ≤ RECORD_MAX_LEN by decide) b ok fs hp
      have hrun : (onWriter (TlsWriter.writeAlert m (Alert.fromTlsErr k))).run c = (if ok then .ok () else .err .IoFailure, { c with writer := w' }) := by
        rw [← alert_code, ← writeAlert_run] at g1
        exact onWriter_ok g1
      have hsend : sendTlsAlert m k = ⟨fun c => match (onWriter (TlsWriter.writeAlert m (Alert.fromTlsErr k))).run c with
        | (.ok (), c) => (.ok k, c)
        | (.err k', c) => (.ok k', c)
        | (.panic, c) => (.panic, c)
        | (.diverge, c) => (.diverge, c)⟩ := by
        cases k <;> first | rfl | exact absurd rfl hk
      simp only [withAlert, if_neg hk, hp]
      rw [St.bind_run, hsend]
      simp only [hrun]
      cases ok
      · exact ⟨rfl, congrArg Writer.wire g2⟩
      · exact ⟨rfl, congrArg Writer.wire g2⟩
  | ok u => exact ⟨rfl, (List.append_nil _).symm⟩
  | panic => exact ⟨rfl, (List.append_nil _).symm⟩
  | diverge => exact ⟨rfl, (List.append_nil _).symm⟩

theorem canSend_clear {m : Mode} {w : TlsWriter} (he : w.encryptor = none) (hn : w.writeCount.toNat + 1 < 2 ^ 64) (ty : ContentType) : CanSend m w ty (clearPieces ty.toU8) := by
  intro f h0 hf b ok fs h
  obtain ⟨w', h1, h2, -⟩ := writeClear m he hn ty f h0 hf h
  exact ⟨w', h1, h2⟩

theorem canSend_keyed {m : Mode} {key iv : Bytes} {k : Nat} {w : TlsWriter} (hk : key.length = 32) (hi : iv.length = 12) (hw : Keyed m key iv k w) (hn : k + 1 < 2 ^ 64) (ty : ContentType) :
    CanSend m w ty (recordPieces key iv k ty.toU8) := by
  intro f h0 hf b ok fs h
  obtain ⟨w', h1, h2, -⟩ := writeKeyed hk hi hw hn ty f h0 hf h
  exact ⟨w', h1, h2⟩

/-! ### Proof: the four parts of the handshake -/

section
variable {m : Mode} {rd : Reader} {wr : Writer} {cr rest : Bytes}

theorem sendHello_sends (m : Mode) (rd : Reader) (wr : Writer) (rest : Bytes) (hcr : cr.length = 32) {b : Bytes} {ok : Bool} {fs : List (Option Nat)}
    (h : sendPieces (clearPieces 22 (clientHelloBytes cr)) wr.faults = (b, ok, fs)) :
    ∃ w', (sendHello m).run (fresh rd wr ⟨cr ++ rest⟩) = (if ok then .ok (cr, helloMessage cr) else .err .IoFailure, { fresh rd wr ⟨cr ++ rest⟩ with rng := ⟨rest⟩, writer := w' }) ∧
      w'.writer = ⟨wr.wire ++ b, fs⟩ ∧ w'.encryptor = none ∧ w'.iv = none ∧ w'.writeCount.toNat ≤ 1 := by
  obtain ⟨e1, e2, e3⟩ := clientHello_eq cr hcr
  have hne : clientHelloBytes cr ≠ [] := by intro h; rw [h] at e3; cases e3
  have hrun : (onRng (Rng.fillBytes 32)).run (fresh rd wr ⟨cr ++ rest⟩) = (.ok cr, { fresh rd wr ⟨cr ++ rest⟩ with rng := ⟨rest⟩ }) := by
    have hb : 32 ≤ (cr ++ rest).length := by rw [List.length_append]; omega
    have := Ecdhe.fillBytes_ok (r := ⟨cr ++ rest⟩) (n := 32) hb
    rw [List.take_left' hcr, List.drop_left' hcr] at this
    exact onRng_ok this
  obtain ⟨w', g1, g2, g3, g4, g5⟩ := writeClear m (w := TlsWriter.new wr) rfl (show 0 + 1 < 2 ^ 64 by decide) .HandshakeTy (clientHelloBytes cr) hne (by rw [e3]; decide) h
  refine ⟨w', ?_, g2, g3, g4, g5⟩
  rw [sendHello, St.bind_of_ok hrun, e1, St.bind_of_ok (St.lift_run _ _)]
  have hw := onWriter_ok (c := { fresh rd wr ⟨cr ++ rest⟩ with rng := ⟨rest⟩ }) ((writeHandshake_of (m := m) e2 (TlsWriter.new wr)).trans g1)
  cases ok with
  | true => rw [St.bind_of_ok hw]; rfl
  | false => rw [St.bind_of_err hw]; rfl

theorem FlightFails.run {x : Res Unit} (h : FlightFails m rd rest x) (hn : countBytes rd.stream + 1 < 2 ^ 64) (c : TlsClient) (hc : c.reader = TlsReader.new rd) (hr : c.rng = ⟨rest⟩) :
    ∃ y c', (readFlight m).run c = (y, c') ∧ (∀ f, y ≠ .ok f) ∧ (y >>= fun _ => .ok ()) = x := by
  have r0 := room_new hn
  have hre : ∀ (x : Res Message) f, (Husk.TlsClient.refused x : Res ServerFlight) ≠ .ok f := by rintro ((_ | _ | _ | _) | _ | _ | _) f h <;> cases h
  have hrx : ∀ (x : Res Message), ((Husk.TlsClient.refused x : Res ServerFlight) >>= fun _ => .ok ()) = (Husk.TlsClient.refused x : Res Unit) := by rintro ((_ | _ | _ | _) | _ | _ | _) <;> rfl
  cases h with
  | hello h1 hne =>
    obtain ⟨t1, g1, -⟩ := h1.runs m r0 (Same.refl _)
    obtain ⟨c', he⟩ := flight_not_hello (c := c) (by rw [hc]; exact g1) hne
    exact ⟨_, c', he, hre _, hrx _⟩
  | parameters h1 hna =>
    obtain ⟨t1, g1, -⟩ := h1.runs m r0 (Same.refl _)
    refine ⟨.err .IllegalParameter, { c with reader := t1 }, ?_, by simp, rfl⟩
    rw [readFlight, St.bind_of_ok (onReader_ok (expectServerHello_iff.mpr (by rw [hc]; exact g1))), checkServerHello_eq, if_neg (show ¬ (_ ∧ _ ∧ _) from hna)]
    rfl
  | certificate h1 ha h2 hne =>
    obtain ⟨r1, -⟩ := h1.kept r0
    obtain ⟨t1, g1, e1⟩ := h1.runs m r0 (Same.refl _)
    obtain ⟨t2, g2, -⟩ := h2.runs m r1 (e1 trivial)
    obtain ⟨c', he⟩ := flight_not_certificate (c := c) (by rw [hc]; exact g1) ha g2 hne
    exact ⟨_, c', he, hre _, hrx _⟩
  | keyExchange h1 ha h2 h3 hne =>
    obtain ⟨r1, -⟩ := h1.kept r0
    obtain ⟨r2, -⟩ := h2.kept r1
    obtain ⟨t1, g1, e1⟩ := h1.runs m r0 (Same.refl _)
    obtain ⟨t2, g2, e2⟩ := h2.runs m r1 (e1 trivial)
    obtain ⟨t3, g3, -⟩ := h3.runs m r2 (e2 trivial)
    obtain ⟨c', he⟩ := flight_not_keyExchange (c := c) (by rw [hc]; exact g1) ha g2 g3 hne
    exact ⟨_, c', he, hre _, hrx _⟩
  | @keys sh certs ske s1 s2 s3 y rng' h1 ha h2 h3 hk hne =>
    obtain ⟨r1, -⟩ := h1.kept r0
    obtain ⟨r2, -⟩ := h2.kept r1
    obtain ⟨t1, g1, e1⟩ := h1.runs m r0 (Same.refl _)
    obtain ⟨t2, g2, e2⟩ := h2.runs m r1 (e1 trivial)
    obtain ⟨t3, g3, -⟩ := h3.runs m r2 (e2 trivial)
    refine ⟨(y >>= fun _ => .diverge : Res ServerFlight), { c with reader := t3, rng := rng' }, ?_, by intro f; cases y <;> simp [bind, Res.bind], ?_⟩
    · rw [readFlight, St.bind_of_ok (onReader_ok (expectServerHello_iff.mpr (by rw [hc]; exact g1))), checkServerHello_eq, if_pos (show _ ∧ _ ∧ _ from ha), St.bind_of_ok (St.lift_run _ _),
        St.bind_of_ok (onReader_ok (c := { c with reader := t1 }) (expectCertificate_iff.mpr g2)),
        St.bind_of_ok (onReader_ok (c := { c with reader := t2 }) (expectServerKeyExchange_iff.mpr g3)), St.bind_run,
        onRng_ok (c := { c with reader := t3 }) (by show _ = (y, rng'); rw [← hk]; exact congrArg _ hr)]
      cases y with
      | ok k => exact absurd rfl (hne k)
      | _ => rfl
    · cases y with
      | ok k => exact absurd rfl (hne k)
      | _ => rfl
  | done h1 ha h2 h3 hk h4 hne =>
    obtain ⟨r1, -⟩ := h1.kept r0
    obtain ⟨r2, -⟩ := h2.kept r1
    obtain ⟨r3, -⟩ := h3.kept r2
    obtain ⟨t1, g1, e1⟩ := h1.runs m r0 (Same.refl _)
    obtain ⟨t2, g2, e2⟩ := h2.runs m r1 (e1 trivial)
    obtain ⟨t3, g3, e3⟩ := h3.runs m r2 (e2 trivial)
    obtain ⟨t4, g4, -⟩ := h4.runs m r3 (e3 trivial)
    obtain ⟨c', he⟩ := flight_not_done (c := c) (by rw [hc]; exact g1) ha g2 g3 (by rw [hr]; exact hk) g4 hne
    exact ⟨_, c', he, hre _, hrx _⟩

theorem sendFinished_sends (m : Mode) (cr : Bytes) (f : ServerFlight) (pub : Bytes) (hc : cr.length = 32) (hf : FlightFit f pub) (c : TlsClient)
    (h1 : c.writer.encryptor = none) (h2 : c.writer.iv = none) (h3 : c.reader.iv = none) (h4 : c.writer.writeCount.toNat ≤ 1) {b : Bytes} {ok : Bool} {fs : List (Option Nat)}
    (h : sendPieces (secondPieces pub (f.keys cr) (f.clientVerify cr pub)) c.writer.writer.faults = (b, ok, fs)) :
    ∃ c', (sendFinished m cr (helloMessage cr) f).run c = (if ok then .ok (f.master cr, (f.keys cr).serverKey, f.messages cr pub, .finished ⟨f.clientVerify cr pub⟩) else .err .IoFailure, c') ∧
      c'.writer.writer = ⟨c.writer.writer.wire ++ b, fs⟩ ∧
      (ok = true → Keyed m (f.keys cr).clientKey (f.keys cr).clientIv 1 c'.writer ∧ c'.reader = { c.reader with iv := some (f.keys cr).serverIv } ∧ c'.rng = c.rng ∧ c'.buf = c.buf) := by
  obtain ⟨e1, e2, l2⟩ := clientKeyExchange_eq pub hf.point
  obtain ⟨v1, l3⟩ := hf.clientVerify hc m
  obtain ⟨e3, e4, l4⟩ := finished_eq _ l3
  obtain ⟨k1, k2, k3, k4⟩ := hf.keys_length hc
  have wne : clientKeyExchangeBytes pub ≠ [] := by intro h; rw [h] at l2; cases l2
  have fne : finishedBytes (f.clientVerify cr pub) ≠ [] := by intro h; rw [h] at l4; cases l4
  have hm48 : (f.master cr).length ≤ 64 := by rw [hf.master_length hc]; decide
  rw [secondPieces, sendPieces_append] at h
  rcases hp1 : sendPieces (clearPieces 22 (clientKeyExchangeBytes pub)) c.writer.writer.faults with ⟨b1, ok1, fs1⟩
  obtain ⟨w1, g1, g2, g3, g4, g5⟩ := writeClear m h1 (by omega) .HandshakeTy (clientKeyExchangeBytes pub) wne (by rw [l2]; decide) hp1
  have g1 := onWriter_ok ((writeHandshake_of (m := m) e2 c.writer).trans g1)
  rw [hp1] at h
  cases ok1 with
  | false =>
    simp only [Prod.mk.injEq] at h
    obtain ⟨rfl, rfl, rfl⟩ := h
    refine ⟨{ c with writer := w1 }, ?_, g2, by simp⟩
    rw [sendFinished, hf.key, e1, St.bind_of_ok (St.lift_run _ _)]
    exact St.bind_of_err g1
  | true =>
  simp only at h
  rw [sendPieces_append] at h
  rcases hp2 : sendPieces (clearPieces 20 [1]) fs1 with ⟨b2, ok2, fs2⟩
  obtain ⟨w2, q1, q2, q3, q4, q5⟩ := writeClear m g3 (by omega) .ChangeCipherSpecTy [1] (by simp) (by decide) (b := b2) (ok := ok2) (fs := fs2) (by rw [g2]; exact hp2)
  rw [hp2] at h
  cases ok2 with
  | false =>
    simp only [Prod.mk.injEq] at h
    obtain ⟨rfl, rfl, rfl⟩ := h
    refine ⟨{ c with writer := w2 }, ?_, by simp only; rw [q2, g2]; simp only [List.append_assoc], by simp⟩
    rw [sendFinished, hf.key, e1, St.bind_of_ok (St.lift_run _ _), St.bind_of_ok g1]
    exact St.bind_of_err (onWriter_ok (c := { c with writer := w1 }) q1)
  | true =>
  simp only at h
  have v1' : verifyData m (tlsMaster f.preMasterSecret cr f.hello.random.data) clientFinishedLabel (handshakeMessages cr (serverMessages f) pub) = .ok (f.clientVerify cr pub) := v1
  obtain ⟨w3, hw3⟩ : ∃ w3 : TlsWriter, w3 = { w2 with encryptor := some (.chacha m (f.keys cr).clientKey), writeCount := 0, iv := some (f.keys cr).clientIv } := ⟨_, rfl⟩
  have hk3 : Keyed m (f.keys cr).clientKey (f.keys cr).clientIv 0 w3 := by rw [hw3]; exact ⟨rfl, rfl, rfl⟩
  have hwire : w3.writer = ⟨c.writer.writer.wire ++ b1 ++ b2, fs2⟩ := by
    rw [hw3]
    show w2.writer = _
    rw [q2, g2]
  obtain ⟨c3, hc3⟩ : ∃ c3 : TlsClient, c3 = { c with writer := w3, reader := { c.reader with iv := some (f.keys cr).serverIv } } := ⟨_, rfl⟩
  have hc3w : c3.writer = w3 := by rw [hc3]
  have hgo : (sendFinished m cr (helloMessage cr) f).run c = (onWriter (TlsWriter.writeHandshake m (.finished ⟨f.clientVerify cr pub⟩)) >>= fun _ =>
      (pure (f.master cr, (f.keys cr).serverKey, f.messages cr pub, Handshake.finished ⟨f.clientVerify cr pub⟩) : St TlsClient _)).run c3 := by
    rw [sendFinished, hf.key, e1, St.bind_of_ok (St.lift_run _ _), St.bind_of_ok g1, TlsWriter.writeChangeCipherSpec,
      St.bind_of_ok (onWriter_ok (c := { c with writer := w1 }) q1), masterSecret_eq m _ _ _ hf.pms hc hf.random, St.bind_of_ok (St.lift_run _ _),
      St.bind_of_ok (installKeys_eq m (tlsMaster f.preMasterSecret cr f.hello.random.data) _ _ hm48 hc hf.random _ (by exact q3)
        (by show w2.iv = none; rw [q4, g4, h2]) (by exact h3)),
      (transcript_eq cr f pub hc hf).1, St.bind_of_ok (St.lift_run _ _), v1', St.bind_of_ok (St.lift_run _ _), e3, St.bind_of_ok (St.lift_run _ _), hc3, hw3]
    rfl
  rw [hgo]
  rcases hp3 : sendPieces (recordPieces (f.keys cr).clientKey (f.keys cr).clientIv 0 22 (finishedBytes (f.clientVerify cr pub))) fs2 with ⟨b3, ok3, fs3⟩
  obtain ⟨w4, r1, r2, r3⟩ := writeKeyed k1 k3 hk3 (by decide) .HandshakeTy (finishedBytes (f.clientVerify cr pub)) fne (by rw [l4]; decide) (b := b3) (ok := ok3) (fs := fs3) (by rw [hwire]; exact hp3)
  rw [← hc3w] at r1
  have r1 := onWriter_ok (c := c3) ((writeHandshake_of (m := m) e4 c3.writer).trans r1)
  rw [hp3] at h
  simp only [Prod.mk.injEq] at h
  obtain ⟨rfl, rfl, rfl⟩ := h
  refine ⟨{ c3 with writer := w4 }, ?_, by simp only; rw [r2, hwire]; simp only [List.append_assoc], ?_⟩
  · cases ok3 with
    | true => rw [St.bind_of_ok r1]; rfl
    | false => rw [St.bind_of_err r1]; rfl
  · intro ht
    subst ht
    exact ⟨by simpa using r3, by rw [hc3], by rw [hc3], by rw [hc3]⟩

theorem FlightComes.fits {f : ServerFlight} {s : TlsReader} {rng' : Rng} (h : FlightComes m rd rest f s rng') (hn : countBytes rd.stream + 1 < 2 ^ 64) : ∃ pub, FlightFit f pub := by
  obtain ⟨_, _, _, t, hR, -⟩ := h.reads hn
  obtain ⟨X, Y, hfit, _⟩ := (hR { fresh rd {} ⟨rest⟩ with rng := ⟨rest⟩ } rfl rfl).fit
  exact ⟨_, hfit⟩

theorem FlightComes.fit {f : ServerFlight} {s : TlsReader} {rng' : Rng} {pub : Bytes} (h : FlightComes m rd rest f s rng') (hn : countBytes rd.stream + 1 < 2 ^ 64) (hp : f.keyData = 65 :: pub) :
    FlightFit f pub := by
  obtain ⟨pub', hfit⟩ := h.fits hn
  have := hp.symm.trans hfit.key
  cases this
  exact hfit

theorem LastFails.run {x : Res Unit} {pub : Bytes} {f : ServerFlight} {s : TlsReader} {rng' : Rng} (h : LastFails m cr pub f s x) (hF : FlightComes m rd rest f s rng') (hp : f.keyData = 65 :: pub)
    (hn : countBytes rd.stream + 1 < 2 ^ 64) (hcr : cr.length = 32) (c : TlsClient) (hc : Same c.reader { s with iv := some (f.keys cr).serverIv }) :
    (∃ c', (readFinished m (f.master cr) (f.keys cr).serverKey (f.messages cr pub) (.finished ⟨f.clientVerify cr pub⟩)).run c = (x, c')) ∧ ∀ u, x ≠ .ok u := by
  have hfit := hF.fit hn hp
  obtain ⟨_, _, _, _, -, -, hr, hd, -⟩ := hF.reads hn
  have hre : ∀ (x : Res Message) u, (Husk.TlsClient.refused x : Res Unit) ≠ .ok u := by rintro ((_ | _ | _ | _) | _ | _ | _) u h <;> cases h
  cases h with
  | change h1 hne =>
    obtain ⟨t1, g1, -⟩ := h1.runs m hr hc
    exact ⟨⟨_, by rw [readFinished, bind_refused (onReader_ok (readChangeCipherSpec_fails g1 hne))]⟩, hre _⟩
  | noChange h1 hne =>
    obtain ⟨t1, g1, -⟩ := h1.runs m hr hc
    exact ⟨⟨_, by rw [readFinished, St.bind_of_err (onReader_ok (readChangeCipherSpec_other g1 hne))]⟩, by simp⟩
  | finished h1 h2 hne =>
    obtain ⟨t1, g1, e1⟩ := h1.runs m hr hc
    have e1 := e1 trivial
    obtain ⟨t2, g2, -⟩ := h2.runs m (hF.changed h1 hn hcr).1 (t := keyed m t1 (f.keys cr).serverKey) ⟨e1.1, rfl, rfl, e1.2.2.2.1, e1.2.2.2.2⟩
    refine ⟨⟨{ c with reader := t2 }, ?_⟩, hre _⟩
    rw [readFinished_keyed m _ _ _ _ _ t1 (e1.2.1.trans ((h1.kept hr).2.1.trans hd)) g1,
      bind_refused (onReader_ok (c := { c with reader := keyed m t1 (f.keys cr).serverKey }) (expectFinished_other g2 hne))]
  | verify h1 h2 hne =>
    obtain ⟨t1, g1, e1⟩ := h1.runs m hr hc
    have e1 := e1 trivial
    obtain ⟨t2, g2, -⟩ := h2.runs m (hF.changed h1 hn hcr).1 (t := keyed m t1 (f.keys cr).serverKey) ⟨e1.1, rfl, rfl, e1.2.2.2.1, e1.2.2.2.2⟩
    exact ⟨⟨_, by rw [readFinished_eq hfit hcr (hc.2.1.trans hd) g1 g2, if_neg hne]⟩, by simp⟩

/-- The handshake up to the point where the server's second flight is read. -/
theorem FlightComes.upto {f : ServerFlight} {s : TlsReader} {rng' : Rng} {pub : Bytes} (hF : FlightComes m rd rest f s rng') (hp : f.keyData = 65 :: pub) (hn : countBytes rd.stream + 1 < 2 ^ 64)
    (hcr : cr.length = 32) {b b2 : Bytes} {ok : Bool} {fs1 fs2 : List (Option Nat)} (h1 : sendPieces (clearPieces 22 (clientHelloBytes cr)) wr.faults = (b, true, fs1))
    (h2 : sendPieces (secondPieces pub (f.keys cr) (f.clientVerify cr pub)) fs1 = (b2, ok, fs2)) :
    ∃ c, c.writer.writer = ⟨wr.wire ++ (b ++ b2), fs2⟩ ∧ (ok = false → (TlsClient.handshake m).run (fresh rd wr ⟨cr ++ rest⟩) = (.err .IoFailure, c)) ∧
      (ok = true → (TlsClient.handshake m).run (fresh rd wr ⟨cr ++ rest⟩) = (readFinished m (f.master cr) (f.keys cr).serverKey (f.messages cr pub) (.finished ⟨f.clientVerify cr pub⟩)).run c ∧
        Keyed m (f.keys cr).clientKey (f.keys cr).clientIv 1 c.writer ∧ Same c.reader { s with iv := some (f.keys cr).serverIv } ∧ c.buf = []) := by
  obtain ⟨w1, g1, g2, g3, g4, g5⟩ := sendHello_sends m rd wr rest hcr h1
  obtain ⟨s1, s2, s3, t, hR, hs, -⟩ := hF.reads hn
  have hR := hR { fresh rd wr ⟨cr ++ rest⟩ with rng := ⟨rest⟩, writer := w1 } rfl rfl
  obtain ⟨c', q1, q2, q3⟩ := sendFinished_sends m cr f pub hcr (hF.fit hn hp) { fresh rd wr ⟨cr ++ rest⟩ with rng := rng', writer := w1, reader := t } g3 g4
    (hR.same.2.trans rfl) g5 (b := b2) (ok := ok) (fs := fs2) (by simp only [g2]; exact h2)
  refine ⟨c', by rw [q2]; simp only [g2, List.append_assoc], fun hk => ?_, fun hk => ?_⟩
  · subst hk
    rw [TlsClient.handshake, St.bind_of_ok g1]
    dsimp only
    rw [St.bind_of_ok (readFlight_ok hR), St.bind_of_err q1]
  · obtain ⟨a1, a2, -, a4⟩ := q3 hk
    subst hk
    refine ⟨?_, a1, ?_, a4⟩
    · rw [TlsClient.handshake, St.bind_of_ok g1]
      dsimp only
      rw [St.bind_of_ok (readFlight_ok hR), St.bind_of_ok q1]
    rw [a2]
    exact ⟨hs.1, hs.2.1, hs.2.2.1, hs.2.2.2.1, rfl⟩

/-! ### Proof: the program -/

theorem runProgram_fails {calls : List Call} {rng : Rng} {x : Res Unit} {wire : Bytes} (hx : ∀ u, x ≠ .ok u) (h : (TlsClient.new m rd wr rng).1 = x)
    (hw : (TlsClient.new m rd wr rng).2.writer.writer.wire = wire) :
    (runProgram m rd wr rng calls).1 = x ∧ (runProgram m rd wr rng calls).2.1 = [] ∧ (runProgram m rd wr rng calls).2.2.writer.writer.wire = wire := by
  rcases hr : TlsClient.new m rd wr rng with ⟨y, c⟩
  rw [hr] at h hw
  simp only at h hw
  subst h
  unfold runProgram
  rw [hr]
  cases y with
  | ok u => exact absurd rfl (hx u)
  | _ => exact ⟨rfl, rfl, hw⟩

theorem withAlert_not_ok {pieces : Bytes → List Bytes} {x : Res Unit} {fs : List (Option Nat)} (hx : ∀ u, x ≠ .ok u) : ∀ u, (withAlert pieces x fs).1 ≠ .ok u := by
  intro u
  cases x with
  | ok v => exact absurd rfl (hx v)
  | err k =>
    by_cases hk : k = .IoFailure
    · simp [withAlert, hk]
    · simp [withAlert, hk]
  | panic => simp [withAlert]
  | diverge => simp [withAlert]

theorem Plays.run {calls : List Call} {x : Res Unit} {rs : List CallResult} {out : Bytes} (h : Plays m rd cr rest wr.faults calls x rs out) (hcr : cr.length = 32)
    (hn : countBytes rd.stream + 1 < 2 ^ 64) (hcalls : (calls.flatMap Call.records).length + 1 < 2 ^ 64) :
    (runProgram m rd wr ⟨cr ++ rest⟩ calls).1 = x ∧ (runProgram m rd wr ⟨cr ++ rest⟩ calls).2.1 = rs ∧
      (runProgram m rd wr ⟨cr ++ rest⟩ calls).2.2.writer.writer.wire = wr.wire ++ out := by
  cases h with
  | notBegun h1 =>
    obtain ⟨w1, g1, g2, g3, -, g5⟩ := sendHello_sends m rd wr rest hcr h1
    have hh : (handshake m).run (fresh rd wr ⟨cr ++ rest⟩) = (.err .IoFailure, { fresh rd wr ⟨cr ++ rest⟩ with rng := ⟨rest⟩, writer := w1 }) := by
      rw [TlsClient.handshake, St.bind_of_err g1]
    obtain ⟨a, b⟩ := new_alert hh (canSend_clear g3 (by omega) .AlertTy)
    simp only [withAlert, if_true, List.append_nil, g2] at a b
    exact runProgram_fails (by simp) a b
  | @refused b fs1 x h1 hf =>
    obtain ⟨w1, g1, g2, g3, -, g5⟩ := sendHello_sends m rd wr rest hcr h1
    obtain ⟨y, c', q1, q2, q3⟩ := hf.run hn { fresh rd wr ⟨cr ++ rest⟩ with rng := ⟨rest⟩, writer := w1 } rfl rfl
    have hx : ∀ u, x ≠ .ok u := by
      rw [← q3]
      cases y with
      | ok f => exact absurd rfl (q2 f)
      | _ => intro u h; cases h
    have hw : c'.writer = w1 := by have := readFlight_keeps m { fresh rd wr ⟨cr ++ rest⟩ with rng := ⟨rest⟩, writer := w1 }; rw [q1] at this; exact this
    have hh : (handshake m).run (fresh rd wr ⟨cr ++ rest⟩) = (x, c') := by
      rw [TlsClient.handshake, St.bind_of_ok g1]
      dsimp only
      rw [St.bind_run, q1, ← q3]
      cases y with
      | ok f => exact absurd rfl (q2 f)
      | _ => rfl
    obtain ⟨a, b⟩ := new_alert hh (canSend_clear (by rw [hw]; exact g3) (by rw [hw]; omega) .AlertTy)
    rw [hw, g2] at a b
    exact runProgram_fails (withAlert_not_ok hx) a (by rw [b]; simp only [List.append_assoc]; rfl)
  | notSent h1 hF hp h2 =>
    obtain ⟨c, g1, g2, -⟩ := hF.upto hp hn hcr h1 h2
    have hh := g2 rfl
    rw [show (Res.err TlsErrorKind.IoFailure : Res Unit) = .err .IoFailure from rfl] at hh
    have : TlsClient.new m rd wr ⟨cr ++ rest⟩ = (.err .IoFailure, c) := by rw [new_run, hh]; rfl
    exact runProgram_fails (by simp) (by rw [this]) (by rw [this]; exact congrArg Writer.wire g1)
  | @failed b b2 fs1 fs2 f s rng' pub x h1 hF hp h2 hl =>
    obtain ⟨c, g1, -, g3⟩ := hF.upto hp hn hcr h1 h2
    obtain ⟨hh, hk, hs, -⟩ := g3 rfl
    obtain ⟨⟨c', q1⟩, hx⟩ := hl.run hF hp hn hcr c hs
    have hw : c'.writer = c.writer := by have := readFinished_keeps m (f.master cr) (f.keys cr).serverKey (f.messages cr pub) (.finished ⟨f.clientVerify cr pub⟩) c; rw [q1] at this; exact this
    obtain ⟨k1, k2, k3, k4⟩ := (hF.fit hn hp).keys_length hcr
    obtain ⟨a, b⟩ := new_alert (hh.trans q1) (canSend_keyed k1 k3 (by rw [hw]; exact hk) (by decide) .AlertTy)
    rw [hw, g1] at a b
    exact runProgram_fails (withAlert_not_ok hx) a (by rw [b]; simp only [List.append_assoc]; rfl)
  | @connected b b2 data out fs1 fs2 f s s1 s2 s3 rng' pub e rs h1 hF hp h2 hc1 hc2 hA hB =>
    obtain ⟨c, g1, -, g3⟩ := hF.upto hp hn hcr h1 h2
    obtain ⟨hh, hk, hs, hbuf⟩ := g3 rfl
    obtain ⟨_, _, _, _, -, -, hr, hd, -⟩ := hF.reads hn
    obtain ⟨k1, k2, k3, k4⟩ := (hF.fit hn hp).keys_length hcr
    obtain ⟨t1, j1, e1⟩ := hc1.runs m hr hs
    have e1 := e1 trivial
    obtain ⟨hr1, -⟩ := hF.changed (cr := cr) hc1 hn hcr
    obtain ⟨t2, j2, e2⟩ := hc2.runs m hr1 (t := keyed m t1 (f.keys cr).serverKey) ⟨e1.1, rfl, rfl, e1.2.2.2.1, e1.2.2.2.2⟩
    have e2 := e2 trivial
    obtain ⟨hr2, hd2, -⟩ := hc2.kept hr1
    have hq := readFinished_eq (hF.fit hn hp) hcr (hs.2.1.trans hd) j1 j2
    rw [if_pos rfl] at hq
    have hnew := (new_of_handshake m rd wr ⟨cr ++ rest⟩ _ _ (by intro k; simp)).mpr (hh.trans hq)
    have hAt : At m (f.keys cr).clientKey (f.keys cr).clientIv data e s3 1 fs2 { c with reader := t2 } :=
      ⟨⟨s2, data, e2, hr2, ⟨m, _, hd2.trans rfl, k2⟩, by rw [show ({ c with reader := t2 } : TlsClient).buf = [] from hbuf]; rfl, hA⟩, hk, by simp only [g1]⟩
    obtain ⟨a1, a2⟩ := hB.run m k1 k3 _ hAt (by omega)
    have hrun : runProgram m rd wr ⟨cr ++ rest⟩ calls = (.ok (), runSession m calls { c with reader := t2 }) := by unfold runProgram; rw [hnew]
    rw [hrun]
    refine ⟨rfl, a1, ?_⟩
    rw [a2]
    simp only [g1, List.append_assoc]

theorem plays_total (m : Mode) (rd : Reader) (cr rest : Bytes) (fs : List (Option Nat)) (calls : List Call) (hn : countBytes rd.stream + 1 < 2 ^ 64) (hcr : cr.length = 32) :
    ∃ x rs out, Plays m rd cr rest fs calls x rs out := by
  rcases hs1 : sendPieces (clearPieces 22 (clientHelloBytes cr)) fs with ⟨b, ok, fs1⟩
  cases ok with
  | false => exact ⟨_, _, _, .notBegun hs1⟩
  | true =>
  have r0 := room_new hn
  have next : ∀ s : TlsReader, Room s → SoundKeys s → ∃ x s', Comes s x s' := fun s hr hk => ⟨_, _, comes_total m s hk hr⟩
  obtain ⟨x1, s1, h1⟩ := next _ r0 (Or.inl rfl)
  by_cases hne1 : ∀ d, x1 ≠ .ok (.HandshakeMessage (.server_hello d))
  · exact ⟨_, _, _, .refused hs1 (.hello h1 hne1)⟩
  obtain ⟨sh, hd⟩ := Classical.not_forall.mp hne1
  cases Classical.not_not.mp hd
  by_cases ha : Agreed sh
  rotate_left
  · exact ⟨_, _, _, .refused hs1 (.parameters h1 ha)⟩
  obtain ⟨r1, d1, -⟩ := h1.kept r0
  obtain ⟨x2, s2, h2⟩ := next s1 r1 (Or.inl (d1.trans rfl))
  by_cases hne2 : ∀ d, x2 ≠ .ok (.HandshakeMessage (.certificate d))
  · exact ⟨_, _, _, .refused hs1 (.certificate h1 ha h2 hne2)⟩
  obtain ⟨certs, hd⟩ := Classical.not_forall.mp hne2
  cases Classical.not_not.mp hd
  obtain ⟨r2, d2, -⟩ := h2.kept r1
  obtain ⟨x3, s3, h3⟩ := next s2 r2 (Or.inl (d2.trans (d1.trans rfl)))
  by_cases hne3 : ∀ d, x3 ≠ .ok (.HandshakeMessage (.server_key_exchange d))
  · exact ⟨_, _, _, .refused hs1 (.keyExchange h1 ha h2 h3 hne3)⟩
  obtain ⟨ske, hd⟩ := Classical.not_forall.mp hne3
  cases Classical.not_not.mp hd
  obtain ⟨r3, d3, -⟩ := h3.kept r2
  rcases hk : (Ecdhe.computeKeys m ske.data).run ⟨rest⟩ with ⟨y, rng'⟩
  by_cases hney : ∀ k, y ≠ .ok k
  · exact ⟨_, _, _, .refused hs1 (.keys h1 ha h2 h3 hk hney)⟩
  obtain ⟨⟨kd, pms⟩, hd⟩ := Classical.not_forall.mp hney
  cases Classical.not_not.mp hd
  obtain ⟨x4, s4, h4⟩ := next s3 r3 (Or.inl (d3.trans (d2.trans (d1.trans rfl))))
  by_cases hne4 : ∀ d, x4 ≠ .ok (.HandshakeMessage (.server_hello_done d))
  · exact ⟨_, _, _, .refused hs1 (.done h1 ha h2 h3 hk h4 hne4)⟩
  obtain ⟨⟨⟩, hd⟩ := Classical.not_forall.mp hne4
  cases Classical.not_not.mp hd
  obtain ⟨r4, d4, -⟩ := h4.kept r3
  obtain ⟨f, hf⟩ : ∃ f : ServerFlight, f = { hello := sh, certs := certs, ske := ske, keyData := kd, preMasterSecret := pms } := ⟨_, rfl⟩
  have hF : FlightComes m rd rest f s4 rng' := by subst hf; exact ⟨⟨s1, s2, s3, h1, h2, h3, h4⟩, ha, hk⟩
  clear hf
  obtain ⟨pub, hfit⟩ := hF.fits hn
  rcases hs2 : sendPieces (secondPieces pub (f.keys cr) (f.clientVerify cr pub)) fs1 with ⟨b2, ok2, fs2⟩
  cases ok2 with
  | false => exact ⟨_, _, _, .notSent hs1 hF hfit.key hs2⟩
  | true =>
  obtain ⟨x5, s5, h5⟩ := next { s4 with iv := some (f.keys cr).serverIv } r4 (Or.inl (d4.trans (d3.trans (d2.trans (d1.trans rfl)))))
  by_cases hne5 : ∀ msg, x5 ≠ .ok msg
  · exact ⟨_, _, _, .failed hs1 hF hfit.key hs2 (.change h5 hne5)⟩
  obtain ⟨msg, hd⟩ := Classical.not_forall.mp hne5
  cases Classical.not_not.mp hd
  by_cases hmsg : msg = .ChangeCipherSpecMessage
  rotate_left
  · exact ⟨_, _, _, .failed hs1 hF hfit.key hs2 (.noChange h5 hmsg)⟩
  subst hmsg
  obtain ⟨r6, k6⟩ := hF.changed h5 hn hcr
  obtain ⟨x6, s6, h6⟩ := next _ r6 k6
  by_cases hne6 : ∀ d, x6 ≠ .ok (.HandshakeMessage (.finished d))
  · exact ⟨_, _, _, .failed hs1 hF hfit.key hs2 (.finished h5 h6 hne6)⟩
  obtain ⟨⟨vd⟩, hd⟩ := Classical.not_forall.mp hne6
  cases Classical.not_not.mp hd
  by_cases hv : vd = f.serverVerify cr pub
  rotate_left
  · exact ⟨_, _, _, .failed hs1 hF hfit.key hs2 (.verify h5 h6 hv)⟩
  subst hv
  obtain ⟨r7, d7, -⟩ := h6.kept r6
  have hd7 : HasDecryptor s6 := ⟨m, _, d7.trans rfl, (hfit.keys_length hcr).2.1⟩
  obtain ⟨data, e, s7, hA⟩ := arrives_total s6 r7 hd7
  obtain ⟨rs, out, hB⟩ := behaves_total (f.keys cr).clientKey (f.keys cr).clientIv calls data e s7 1 fs2 (fun k he => hA.after r7 hd7 he)
  exact ⟨_, _, _, .connected hs1 hF hfit.key hs2 h5 h6 hA hB⟩

end

/-! ### C110 -/

/-- C110: a program that makes a connection and then any calls, over any transport: the results and the bytes on the wire are what `Plays` says, and nothing else. -/
theorem C110_program (m : Mode) (rd : Reader) (wr : Writer) (cr rest : Bytes) (calls : List Call) (x : Res Unit) (rs : List CallResult) (out : Bytes) (hcr : cr.length = 32)
    (hn : countBytes rd.stream + 1 < 2 ^ 64) (hcalls : (calls.flatMap Call.records).length + 1 < 2 ^ 64) :
    ((runProgram m rd wr ⟨cr ++ rest⟩ calls).1 = x ∧ (runProgram m rd wr ⟨cr ++ rest⟩ calls).2.1 = rs ∧ (runProgram m rd wr ⟨cr ++ rest⟩ calls).2.2.writer.writer.wire = wr.wire ++ out) ↔
      Plays m rd cr rest wr.faults calls x rs out := by
  constructor
  · rintro ⟨rfl, rfl, h3⟩
    obtain ⟨x', rs', out', g⟩ := plays_total m rd cr rest wr.faults calls hn hcr
    obtain ⟨g1, g2, g3⟩ := g.run (wr := wr) hcr hn hcalls
    rw [h3] at g3
    rw [g1, g2, List.append_cancel_left g3]
    exact g
  · exact fun g => g.run hcr hn hcalls

/-- C110: and `Plays` has exactly one value. -/
theorem C110_unique (m : Mode) (rd : Reader) (cr rest : Bytes) (fs : List (Option Nat)) (calls : List Call) (hcr : cr.length = 32) (hn : countBytes rd.stream + 1 < 2 ^ 64)
    (hcalls : (calls.flatMap Call.records).length + 1 < 2 ^ 64) :
    ∃ x rs out, Plays m rd cr rest fs calls x rs out ∧ ∀ x' rs' out', Plays m rd cr rest fs calls x' rs' out' → x' = x ∧ rs' = rs ∧ out' = out := by
  obtain ⟨x, rs, out, g⟩ := plays_total m rd cr rest fs calls hn hcr
  refine ⟨x, rs, out, g, fun x' rs' out' g' => ?_⟩
  obtain ⟨h1, h2, h3⟩ := Plays.run (wr := ⟨[], fs⟩) g hcr hn hcalls
  obtain ⟨h4, h5, h6⟩ := Plays.run (wr := ⟨[], fs⟩) g' hcr hn hcalls
  exact ⟨h4.symm.trans h1, h5.symm.trans h2, List.append_cancel_left (h6.symm.trans h3)⟩

/-! ### Cases -/

/-- The transport takes one byte. -/
example (m : Mode) (rd : Reader) (cr rest : Bytes) (calls : List Call) : Plays m rd cr rest [none, some 0] calls (.err .IoFailure) [] [22] :=
  .notBegun (fs1 := []) rfl

/-- The server answers with `handshake_failure`; the client answers with a close_notify, and says AlertReceived. -/
example (m : Mode) (cr rest : Bytes) (calls : List Call) : Plays m ⟨[.data [21, 3, 3, 0, 2, 2, 40]]⟩ cr rest [] calls (.err .AlertReceived) []
    (recordBytes 22 3 3 (clientHelloBytes cr) ++ [21, 3, 3, 0, 2, 2, 0]) := by
  have h : Comes (TlsReader.new ⟨[.data [21, 3, 3, 0, 2, 2, 40]]⟩) (.ok (.AlertMessage ⟨.fatal, .handshake_failure⟩)) { TlsReader.new ⟨[]⟩ with readCount := 1 } :=
    .message (r := ⟨.AlertTy, 3, 3, [2, 40]⟩) cut_nil (.cons (s1 := { TlsReader.new ⟨[]⟩ with readCount := 1 }) (ty := .AlertTy) (a := 3) (b := 3) (f := [2, 40]) (by decide) rfl rfl rfl rfl rfl
      (.nil rfl rfl rfl rfl)) rfl (.alert .fatal .handshake_failure rfl ⟨[], rfl⟩)
  have := Plays.refused (m := m) (cr := cr) (calls := calls) (fs := []) (fs1 := []) (b := recordBytes 22 3 3 (clientHelloBytes cr)) (by simp [clearPieces, sendPieces, sendPiece, recordBytes])
    (FlightFails.hello (m := m) (rest := rest) h (by simp))
  exact this

/-- The same over a transport that fails in the alert: the program sees only the failure. -/
example (m : Mode) (cr rest : Bytes) (calls : List Call) : Plays m ⟨[.data [21, 3, 3, 0, 2, 2, 40]]⟩ cr rest [none, none, none, none, none, none, some 0] calls (.err .IoFailure) []
    (recordBytes 22 3 3 (clientHelloBytes cr) ++ [21]) := by
  have h : Comes (TlsReader.new ⟨[.data [21, 3, 3, 0, 2, 2, 40]]⟩) (.ok (.AlertMessage ⟨.fatal, .handshake_failure⟩)) { TlsReader.new ⟨[]⟩ with readCount := 1 } :=
    .message (r := ⟨.AlertTy, 3, 3, [2, 40]⟩) cut_nil (.cons (s1 := { TlsReader.new ⟨[]⟩ with readCount := 1 }) (ty := .AlertTy) (a := 3) (b := 3) (f := [2, 40]) (by decide) rfl rfl rfl rfl rfl
      (.nil rfl rfl rfl rfl)) rfl (.alert .fatal .handshake_failure rfl ⟨[], rfl⟩)
  have := Plays.refused (m := m) (cr := cr) (calls := calls) (fs := [none, none, none, none, none, none, some 0]) (fs1 := [none, some 0]) (b := recordBytes 22 3 3 (clientHelloBytes cr))
    (by simp [clearPieces, sendPieces, sendPiece, recordBytes]) (FlightFails.hello (m := m) (rest := rest) h (by simp))
  exact this

/-- A program that connects, over a transport that delivers byte by byte and takes everything. -/
example (m : Mode) : ∃ rd cr rest rs out, cr.length = 32 ∧ countBytes rd.stream + 1 < 2 ^ 64 ∧ Plays m rd cr rest [] [.write [1, 2, 3], .read 2, .read 1] (.ok ()) rs out := by
  obtain ⟨V, hV⟩ : ∃ V : ServerValues, V.Conforms := ⟨{ random := List.replicate 32 7, secret := 1 },
    ⟨by simp, by simp, by simp, by simp, by decide, by rw [one_nsmul]; exact Spec.P256.G_ne_zero, by simp⟩⟩
  have D : Draws (List.replicate 32 0 ++ (5 :: List.replicate 31 0)) (List.replicate 32 0) (5 :: List.replicate 31 0) [] :=
    ⟨⟨[], by simp, by simp⟩, by simp, by simp, by decide⟩
  obtain ⟨S, hS⟩ : ∃ S, S = V.session (List.replicate 32 0) (clientPoint (5 :: List.replicate 31 0)) := ⟨_, rfl⟩
  have hsv := serverVerify_length D hV hS
  have hfl := flight_length hV hS
  have hc1 : Cuts (chunks 16384 S.flight) S.flight := cuts_exists _ (by omega)
  have hc2 : Cuts (chunks 16384 (finishedBytes S.serverVerify)) (finishedBytes S.serverVerify) := cuts_exists _ (by simp [finishedBytes, handshakeBytes, hsv])
  obtain ⟨rd, hrd⟩ : ∃ rd, rd = byteByByte (serverWire S (chunks 16384 S.flight) (chunks 16384 (finishedBytes S.serverVerify)) ++
      protectedRecords S.keys.serverKey S.keys.serverIv 23 (chunks 16384 (finishedBytes S.serverVerify)).length [[7, 8], [9]]) := ⟨_, rfl⟩
  obtain ⟨c, h1, -⟩ := C66_delivered m rd {} ⟨_⟩ rfl _ _ _ D V hV S hS _ _ [[7, 8], [9]]
    (by simp) (by simp) [] ⟨hc1, hc2, by rw [hrd, stream_byteByByte, ofBytes_append, List.append_nil]⟩ [.write [1, 2, 3], .read 2, .read 1] (by decide)
  have hn : countBytes rd.stream + 1 < 2 ^ 64 := by
    have l2 : (finishedBytes S.serverVerify).length = 16 := by simp [finishedBytes, handshakeBytes, hsv]
    have n1 : (chunks 16384 S.flight).length = (S.flight.length + 16384 - 1) / 16384 := chunks_count (by decide) _
    have n2 : (chunks 16384 (finishedBytes S.serverVerify)).length = (16 + 16384 - 1) / 16384 := by rw [chunks_count (by decide), l2]
    rw [hrd, stream_byteByByte, countBytes_ofBytes, List.length_append, serverWire, List.length_append, List.length_append, clear_length, protectedRecords_length,
      protectedRecords_length, hc1.2.2, hc2.2.2, recordBytes_length, l2, n1, n2]
    simp only [List.flatten_cons, List.flatten_nil, List.length_append, List.length_cons, List.length_nil]
    omega
  have hcr : (List.replicate 32 (0 : UInt8)).length = 32 := by simp
  obtain ⟨x, rs, out, hP, -⟩ := C110_unique m rd (List.replicate 32 0) (5 :: List.replicate 31 0) [] [.write [1, 2, 3], .read 2, .read 1] hcr hn (by decide)
  obtain ⟨g1, g2, -⟩ := (C110_program m rd {} _ _ _ x rs out hcr hn (by decide)).mpr hP
  simp only [runProgram, h1] at g1 g2
  subst g1 g2
  exact ⟨rd, _, _, _, _, hcr, hn, hP⟩

end Husk
