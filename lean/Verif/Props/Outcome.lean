import Verif.Props.Diagnosis
import Verif.Props.NoPanic
/-! C107: what `TlsClient::new` returns, as a relation on what the server sends that has exactly one value. -/

namespace Husk

open Item Spec TlsReader TlsClient

/-! ### Specification: the next message -/

/-- The body of a handshake message of type `ty` that decodes to `h`. -/
def GoodBody (ty : UInt8) (body : Bytes) (h : Handshake) : Prop := ty.toNat ∈ knownTypes ∧ (Handshake.readArm ty.toNat).run body = (.ok h, [])

/-- A record that is a message by itself. -/
inductive IsMessage (r : Record) : Message → Prop
  | change : r.contentType = .ChangeCipherSpecTy → r.fragment = [1] → IsMessage r .ChangeCipherSpecMessage
  | alert (level : AlertLevel) (desc : AlertDescription) : r.contentType = .AlertTy → [levelNumber level, alertNumber desc] <+: r.fragment → IsMessage r (.AlertMessage ⟨level, desc⟩)
  | data : r.contentType = .ApplicationDataTy → IsMessage r (.ApplicationDataMessage r.fragment)

/-- Only the transport has moved on: it gives `l`. -/
def LeftAt (s : TlsReader) (l : List Sym) (s' : TlsReader) : Prop :=
  s'.reader.stream = l ∧ s'.decryptor = s.decryptor ∧ s'.readCount = s.readCount ∧ s'.handshakeBuffer = s.handshakeBuffer ∧ s'.iv = s.iv

/-- What comes next on `s` (a message, an error or a panic), and what is left after a message or an error. Records are taken one after the other, and only while the bytes of
handshake records do not yet make a whole message. -/
inductive Comes : TlsReader → Res Message → TlsReader → Prop
  /-- A whole handshake message has been received. -/
  | whole {s s' : TlsReader} {ty : UInt8} {body rest : Bytes} {h : Handshake} : s.handshakeBuffer.buf = handshakeBytes ty body ++ rest → body.length < 2 ^ 24 → GoodBody ty body h →
      Same s' { s with handshakeBuffer := ⟨rest⟩ } → Comes s (.ok (.HandshakeMessage h)) s'
  /-- It has been received, and is refused. -/
  | bad {s s' : TlsReader} {ty : UInt8} {body rest : Bytes} {k : TlsErrorKind} : s.handshakeBuffer.buf = handshakeBytes ty body ++ rest → body.length < 2 ^ 24 → BadBody ty body k →
      Same s' { s with handshakeBuffer := ⟨rest⟩ } → Comes s (.err k) s'
  /-- The next record is one with more of it. -/
  | more {s s1 s' : TlsReader} {r : Record} {x : Res Message} : MessageCut s.handshakeBuffer.buf → Took s [r] s1 → r.contentType = .HandshakeTy → r.fragment ≠ [] →
      s1.handshakeBuffer.buf = s.handshakeBuffer.buf ++ r.fragment → Comes s1 x s' → Comes s x s'
  /-- The next record is another message. -/
  | message {s s' : TlsReader} {r : Record} {msg : Message} : MessageCut s.handshakeBuffer.buf → Took s [r] s' → s'.handshakeBuffer = s.handshakeBuffer → IsMessage r msg → Comes s (.ok msg) s'
  /-- The next record is no message. -/
  | noMessage {s s' : TlsReader} {r : Record} : MessageCut s.handshakeBuffer.buf → Took s [r] s' → s'.handshakeBuffer = s.handshakeBuffer → TlsReader.NoMessage r →
      Comes s (.err .UnexpectedMessage) s'
  /-- There is no next record, or it is refused. -/
  | noRecord {s s' : TlsReader} {k : TlsErrorKind} {l : List Sym} : MessageCut s.handshakeBuffer.buf → BadRecord s k l → LeftAt s l s' → Comes s (.err k) s'
  /-- The next record makes the record layer panic (`unprotect_panic`: it opens to more than 2^14 bytes). -/
  | overlong {s s' : TlsReader} {ty : ContentType} {a b : UInt8} {f : Bytes} {l : List Sym} : MessageCut s.handshakeBuffer.buf → f.length ≤ 18432 →
      s.reader.stream = ofBytes (recordBytes ty.toU8 a b f) ++ l → s.unprotect ty a b f = .panic → Comes s .panic s'

/-! ### Specification: the handshake -/

/-- The server's first flight is complete, agreed to, and has given keys; `s` is what is left. -/
structure FlightComes (m : Mode) (rd : Reader) (rest : Bytes) (f : ServerFlight) (s : TlsReader) (rng' : Rng) : Prop where
  came : ∃ s1 s2 s3, Comes (TlsReader.new rd) (.ok (.HandshakeMessage (.server_hello f.hello))) s1 ∧ Comes s1 (.ok (.HandshakeMessage (.certificate f.certs))) s2 ∧
    Comes s2 (.ok (.HandshakeMessage (.server_key_exchange f.ske))) s3 ∧ Comes s3 (.ok (.HandshakeMessage (.server_hello_done {}))) s
  agreed : Agreed f.hello
  keys : (Ecdhe.computeKeys m f.ske.data).run ⟨rest⟩ = (.ok (f.keyData, f.preMasterSecret), rng')

/-- How the handshake ends when the server sends what is on `rd`, the client's random bytes being `cr` and then `rest`. In place of the message expected anything else (`x`)
may come: an alert is reported as AlertReceived, another message as UnexpectedMessage, an error or a panic as itself (`refused`). -/
inductive Ends (m : Mode) (rd : Reader) (cr rest : Bytes) : Res Unit → Prop
  | hello {x : Res Message} {s1 : TlsReader} : Comes (TlsReader.new rd) x s1 → (∀ d, x ≠ .ok (.HandshakeMessage (.server_hello d))) → Ends m rd cr rest (refused x)
  | parameters {sh : ServerHello} {s1 : TlsReader} : Comes (TlsReader.new rd) (.ok (.HandshakeMessage (.server_hello sh))) s1 → ¬ Agreed sh → Ends m rd cr rest (.err .IllegalParameter)
  | certificate {sh : ServerHello} {x : Res Message} {s1 s2 : TlsReader} : Comes (TlsReader.new rd) (.ok (.HandshakeMessage (.server_hello sh))) s1 → Agreed sh → Comes s1 x s2 →
      (∀ d, x ≠ .ok (.HandshakeMessage (.certificate d))) → Ends m rd cr rest (refused x)
  | keyExchange {sh : ServerHello} {certs : CertificateList} {x : Res Message} {s1 s2 s3 : TlsReader} : Comes (TlsReader.new rd) (.ok (.HandshakeMessage (.server_hello sh))) s1 → Agreed sh →
      Comes s1 (.ok (.HandshakeMessage (.certificate certs))) s2 → Comes s2 x s3 → (∀ d, x ≠ .ok (.HandshakeMessage (.server_key_exchange d))) → Ends m rd cr rest (refused x)
  | keys {sh : ServerHello} {certs : CertificateList} {ske : ObscureData} {s1 s2 s3 : TlsReader} {y : Res (Bytes × Bytes)} {rng' : Rng} :
      Comes (TlsReader.new rd) (.ok (.HandshakeMessage (.server_hello sh))) s1 → Agreed sh → Comes s1 (.ok (.HandshakeMessage (.certificate certs))) s2 →
      Comes s2 (.ok (.HandshakeMessage (.server_key_exchange ske))) s3 → (Ecdhe.computeKeys m ske.data).run ⟨rest⟩ = (y, rng') → (∀ k, y ≠ .ok k) →
      Ends m rd cr rest (y >>= fun _ => .ok ())
  | done {sh : ServerHello} {certs : CertificateList} {ske : ObscureData} {x : Res Message} {s1 s2 s3 s4 : TlsReader} {k : Bytes × Bytes} {rng' : Rng} :
      Comes (TlsReader.new rd) (.ok (.HandshakeMessage (.server_hello sh))) s1 → Agreed sh → Comes s1 (.ok (.HandshakeMessage (.certificate certs))) s2 →
      Comes s2 (.ok (.HandshakeMessage (.server_key_exchange ske))) s3 → (Ecdhe.computeKeys m ske.data).run ⟨rest⟩ = (.ok k, rng') →
      Comes s3 x s4 → (∀ d, x ≠ .ok (.HandshakeMessage (.server_hello_done d))) → Ends m rd cr rest (refused x)
  | change {f : ServerFlight} {s s1 : TlsReader} {rng' : Rng} {x : Res Message} : FlightComes m rd rest f s rng' → Comes { s with iv := some (f.keys cr).serverIv } x s1 →
      (∀ msg, x ≠ .ok msg) → Ends m rd cr rest (refused x)
  | noChange {f : ServerFlight} {s s1 : TlsReader} {rng' : Rng} {msg : Message} : FlightComes m rd rest f s rng' → Comes { s with iv := some (f.keys cr).serverIv } (.ok msg) s1 →
      msg ≠ .ChangeCipherSpecMessage → Ends m rd cr rest (.err .UnexpectedMessage)
  | finished {f : ServerFlight} {s s1 s2 : TlsReader} {rng' : Rng} {x : Res Message} : FlightComes m rd rest f s rng' →
      Comes { s with iv := some (f.keys cr).serverIv } (.ok .ChangeCipherSpecMessage) s1 → Comes (keyed m s1 (f.keys cr).serverKey) x s2 →
      (∀ d, x ≠ .ok (.HandshakeMessage (.finished d))) → Ends m rd cr rest (refused x)
  | verify {f : ServerFlight} {s s1 s2 : TlsReader} {rng' : Rng} {pub vd : Bytes} : FlightComes m rd rest f s rng' → f.keyData = 65 :: pub →
      Comes { s with iv := some (f.keys cr).serverIv } (.ok .ChangeCipherSpecMessage) s1 → Comes (keyed m s1 (f.keys cr).serverKey) (.ok (.HandshakeMessage (.finished ⟨vd⟩))) s2 →
      vd ≠ f.serverVerify cr pub → Ends m rd cr rest (.err .DecryptError)
  | connected {f : ServerFlight} {s s1 s2 : TlsReader} {rng' : Rng} {pub vd : Bytes} : FlightComes m rd rest f s rng' → f.keyData = 65 :: pub →
      Comes { s with iv := some (f.keys cr).serverIv } (.ok .ChangeCipherSpecMessage) s1 → Comes (keyed m s1 (f.keys cr).serverKey) (.ok (.HandshakeMessage (.finished ⟨vd⟩))) s2 →
      vd = f.serverVerify cr pub → Ends m rd cr rest (.ok ())

/-! ### Proof: the next message -/

theorem Room.same {s t : TlsReader} (h : Same s t) (hr : Room s) : Room t := by
  unfold Room at *
  rw [← h.1, ← h.2.2.1]
  exact hr

theorem Same.symm {s t : TlsReader} (h : Same s t) : Same t s := ⟨h.1.symm, h.2.1.symm, h.2.2.1.symm, h.2.2.2.1.symm, h.2.2.2.2.symm⟩
theorem Same.trans {s t u : TlsReader} (h : Same s t) (g : Same t u) : Same s u :=
  ⟨h.1.trans g.1, h.2.1.trans g.2.1, h.2.2.1.trans g.2.2.1, h.2.2.2.1.trans g.2.2.2.1, h.2.2.2.2.trans g.2.2.2.2⟩
theorem Same.refl (s : TlsReader) : Same s s := ⟨rfl, rfl, rfl, rfl, rfl⟩

theorem handshakeRead_run (ty : UInt8) (body : Bytes) :
    (TlsItem.read (α := Handshake)).run (handshakeBytes ty body) = (Handshake.readArm ty.toNat >>= fun ret => Handshake.checkEnd ret : P Handshake).run body := by
  have e1 : (Item.readNum 1).run (handshakeBytes ty body) = (.ok ty.toNat, beBytes 3 body.length ++ body) := by
    rw [handshakeBytes, Item.readNum, St.bind_of_ok (s' := beBytes 3 body.length ++ body) (a := [ty]) (by simp [Item.readExact]), St.pure_run]
    simp [beNat, leNat]
  have e2 : (Item.readNum 3).run (beBytes 3 body.length ++ body) = (.ok (beNat (beBytes 3 body.length)), body) := by
    rw [Item.readNum, St.bind_of_ok (s' := body) (a := beBytes 3 body.length) (by simp [Item.readExact]), St.pure_run]
  show (Item.readNum 1 >>= fun ty => Item.readNum 3 >>= fun _ => Handshake.readArm ty >>= fun ret => Handshake.checkEnd ret : P Handshake).run (handshakeBytes ty body) = _
  rw [St.bind_of_ok e1, St.bind_of_ok e2]

theorem handshakeRead_good {ty : UInt8} {body : Bytes} {h : Handshake} (g : GoodBody ty body h) : ((TlsItem.read (α := Handshake)).run (handshakeBytes ty body)).1 = .ok h := by
  rw [handshakeRead_run, St.bind_of_ok g.2]
  rfl

theorem handshakeRead_bad {ty : UInt8} {body : Bytes} {k : TlsErrorKind} (g : BadBody ty body k) : ((TlsItem.read (α := Handshake)).run (handshakeBytes ty body)).1 = .err k := by
  rw [handshakeRead_run]
  cases g with
  | short _ h =>
    rcases hr : (Handshake.readArm ty.toNat).run body with ⟨x, rest⟩
    rw [hr] at h
    simp only at h
    subst h
    rw [St.bind_of_err hr]
  | value _ h =>
    rcases hr : (Handshake.readArm ty.toNat).run body with ⟨x, rest⟩
    rw [hr] at h
    simp only at h
    subst h
    rw [St.bind_of_err hr]
  | type h => rw [readArm_unknown _ h]; rfl
  | long h x rest _ hr =>
    rw [St.bind_of_ok hr]
    simp only [Handshake.checkEnd]
    rw [show (Item.readNum 1).run (x :: rest) = (.ok (beNat [x]), rest) by
      rw [Item.readNum, St.bind_of_ok (s' := rest) (a := [x]) (by simp [Item.readExact]), St.pure_run]]

/-- What the buffer does with a whole message. -/
theorem getMessage_whole (ty : UInt8) (body rest : Bytes) (hb : body.length < 2 ^ 24) {x : Res Handshake} (h : ((TlsItem.read (α := Handshake)).run (handshakeBytes ty body)).1 = x) :
    HandshakeBuffer.getMessage.run ⟨handshakeBytes ty body ++ rest⟩ = (x >>= fun h => .ok (some h), ⟨rest⟩) := by
  have hl : (handshakeBytes ty body).length = body.length + 4 := by simp [handshakeBytes]; omega
  have h3 : beNat (((handshakeBytes ty body ++ rest).drop 1).take 3) = body.length := by
    rw [handshakeBytes, List.cons_append, List.drop_succ_cons, List.drop_zero, List.append_assoc, List.take_left' (by simp)]
    rw [beNat_beBytes, Nat.mod_eq_of_lt (by omega)]
  simp only [HandshakeBuffer.getMessage]
  rw [List.length_append, if_neg (by omega), h3, if_neg (by omega), List.take_left' hl, List.drop_left' hl, h]
  cases x <;> rfl

theorem getMessage_of_cut {buf : Bytes} (h : MessageCut buf) : HandshakeBuffer.getMessage.run ⟨buf⟩ = (.ok none, ⟨buf⟩) := by
  simp only [HandshakeBuffer.getMessage]
  rcases h with h | h
  · rw [if_pos h]
  · split
    · rfl
    · rw [if_pos (by omega)]

theorem not_cut {ty : UInt8} {body rest : Bytes} (hb : body.length < 2 ^ 24) : ¬ MessageCut (handshakeBytes ty body ++ rest) := by
  have hl : (handshakeBytes ty body).length = body.length + 4 := by simp [handshakeBytes]; omega
  have h3 : beNat (((handshakeBytes ty body ++ rest).drop 1).take 3) = body.length := by
    rw [handshakeBytes, List.cons_append, List.drop_succ_cons, List.drop_zero, List.append_assoc, List.take_left' (by simp)]
    rw [beNat_beBytes, Nat.mod_eq_of_lt (by omega)]
  rintro (h | h)
  · rw [List.length_append] at h; omega
  · rw [h3, List.length_append] at h; omega

/-! A record that does not come. -/

theorem readExact_after {n : Nat} {r : Reader} {p : Bytes} {l : List Sym} (h : StopsAfter r.stream p l) (hp : p.length < n) :
    ∃ r', (Reader.readExact n).run r = (.err .IoFailure, r') ∧ r'.stream = l := by
  rcases h with ⟨h, hl⟩ | h
  · obtain ⟨r', h1, h2⟩ := Reader.readExact_spec n r
    have ht : takeBytes n (ofBytes p ++ []) = (none, []) := by
      have := takeBytes_append p (n - p.length) []
      rw [show p.length + (n - p.length) = n by omega] at this
      rw [this]
      obtain ⟨k, hk⟩ : ∃ k, n - p.length = k + 1 := ⟨n - p.length - 1, by omega⟩
      rw [hk]
      rfl
    rw [List.append_nil] at ht
    rw [h, ht] at h1 h2
    exact ⟨r', h1, h2.trans hl.symm⟩
  · exact readExact_cut h hp

theorem stopsAfter_tail {stream l : List Sym} {p q : Bytes} (h : StopsAfter stream (p ++ q) l) : ∃ t, stream = ofBytes p ++ t ∧ StopsAfter t q l := by
  rcases h with ⟨h, hl⟩ | h
  · exact ⟨ofBytes q, by rw [h, ofBytes_append], Or.inl ⟨rfl, hl⟩⟩
  · exact ⟨ofBytes q ++ Sym.stop :: l, by rw [h, ofBytes_append, List.append_assoc], Or.inr rfl⟩

theorem ofU8_of_mem {n : UInt8} (h : n ∈ ([20, 21, 22, 23] : Bytes)) : ∃ ty, ContentType.ofU8 n = some ty ∧ ty.toU8 = n := by
  simp only [List.mem_cons, List.not_mem_nil, or_false] at h
  rcases h with rfl | rfl | rfl | rfl
  · exact ⟨.ChangeCipherSpecTy, rfl, rfl⟩
  · exact ⟨.AlertTy, rfl, rfl⟩
  · exact ⟨.HandshakeTy, rfl, rfl⟩
  · exact ⟨.ApplicationDataTy, rfl, rfl⟩

theorem ofU8_of_not_mem {n : UInt8} (h : n ∉ ([20, 21, 22, 23] : Bytes)) : ContentType.ofU8 n = none := by
  cases hc : ContentType.ofU8 n with
  | none => rfl
  | some ty =>
    have := type_mem ty
    rw [← ContentType.toU8_ofU8 hc] at this
    exact absurd this h

theorem readRecord_stops (m : Mode) (s : TlsReader) {p : Bytes} {l : List Sym} (hc : RecordCut p) (hs : StopsAfter s.reader.stream p l) :
    ∃ s', (readRecord m).run s = (.err .IoFailure, s') ∧ LeftAt s l s' := by
  have stop8 : ∀ {r : Reader}, StopsAfter r.stream [] l → ∃ r', Reader.readU8.run r = (.err .IoFailure, r') ∧ r'.stream = l := by
    intro r h
    obtain ⟨r', h1, h2⟩ := readExact_after (n := 1) h (by simp)
    exact ⟨r', by rw [Reader.readU8, St.bind_of_err h1], h2⟩
  match p, hc, hs with
  | [], _, hs =>
    obtain ⟨r1, h1, g⟩ := stop8 hs
    exact ⟨{ s with reader := r1 }, by rw [readRecord, St.bind_of_err (io_err h1)], g, rfl, rfl, rfl, rfl⟩
  | n :: p1, hc, hs =>
    obtain ⟨ty, hty, -⟩ := ofU8_of_mem (hc.1 n rfl)
    obtain ⟨t1, e1, hs1⟩ := stopsAfter_tail (p := [n]) hs
    obtain ⟨r1, h1, g1⟩ := Reader.readU8_ok e1
    rw [← g1] at hs1
    rw [readRecord, St.bind_of_ok (io_ok h1), hty]
    simp only
    match p1, hc, hs1 with
    | [], _, hs1 =>
      obtain ⟨r2, h2, g⟩ := stop8 hs1
      exact ⟨{ s with reader := r2 }, by rw [St.bind_of_err (io_err (s := { s with reader := r1 }) h2)], g, rfl, rfl, rfl, rfl⟩
    | a :: p2, hc, hs1 =>
      obtain ⟨t2, e2, hs2⟩ := stopsAfter_tail (p := [a]) hs1
      obtain ⟨r2, h2, g2⟩ := Reader.readU8_ok e2
      rw [← g2] at hs2
      rw [St.bind_of_ok (io_ok (s := { s with reader := r1 }) h2)]
      match p2, hc, hs2 with
      | [], _, hs2 =>
        obtain ⟨r3, h3, g⟩ := stop8 hs2
        exact ⟨{ s with reader := r3 }, by rw [St.bind_of_err (io_err (s := { s with reader := r2 }) h3)], g, rfl, rfl, rfl, rfl⟩
      | b :: p3, hc, hs2 =>
        obtain ⟨t3, e3, hs3⟩ := stopsAfter_tail (p := [b]) hs2
        obtain ⟨r3, h3, g3⟩ := Reader.readU8_ok e3
        rw [← g3] at hs3
        rw [St.bind_of_ok (io_ok (s := { s with reader := r2 }) h3)]
        by_cases hl : p3.length < 2
        · obtain ⟨r4, h4, g⟩ := readExact_after (n := 2) hs3 hl
          exact ⟨{ s with reader := r4 }, by rw [St.bind_of_err (io_err (s := { s with reader := r3 }) (by rw [Reader.readBeU16, St.bind_of_err h4]))], g, rfl, rfl, rfl, rfl⟩
        · obtain ⟨len, p4, rfl, hlen⟩ : ∃ len p4, p3 = len ++ p4 ∧ len.length = 2 := ⟨p3.take 2, p3.drop 2, (List.take_append_drop _ _).symm, by rw [List.length_take]; omega⟩
          have hn : beNat (((n :: a :: b :: (len ++ p4)).drop 3).take 2) = beNat len := by
            show beNat ((len ++ p4).take 2) = _
            rw [List.take_left' hlen]
          obtain ⟨-, hc⟩ := hc
          rw [hn] at hc
          simp only [List.length_cons, List.length_append] at hc
          obtain ⟨t4, e4, hs4⟩ := stopsAfter_tail hs3
          have hlt : beNat len < 2 ^ 16 := by have := beNat_lt len; rw [hlen] at this; exact this
          have hbe : beBytes 2 (beNat len) = len := by have := beBytes_beNat len; rwa [hlen] at this
          obtain ⟨r4, h4, g4⟩ := Reader.readBeU16_ok (n := beNat len) (l := t4) (by omega) (by rw [hbe]; exact e4)
          rw [← g4] at hs4
          have hu : (UInt16.ofNat (beNat len)).toNat = beNat len := by simp only [UInt16.toNat_ofNat']; omega
          obtain ⟨r5, h5, g⟩ := readExact_after (n := (UInt16.ofNat (beNat len)).toNat) hs4 (by omega)
          have hE : ENC_RECORD_MAX_LEN = 18432 := rfl
          exact ⟨{ s with reader := r5 }, by rw [St.bind_of_ok (io_ok (s := { s with reader := r3 }) h4), if_neg (by rw [hu]; omega), St.bind_of_err (io_err (s := { s with reader := r4 }) h5)], g, rfl, rfl, rfl, rfl⟩

theorem badRecord_run (m : Mode) {s : TlsReader} {k : TlsErrorKind} {l : List Sym} (h : BadRecord s k l) : ∃ s', (readRecord m).run s = (.err k, s') ∧ LeftAt s l s' := by
  have hE : ENC_RECORD_MAX_LEN = 18432 := rfl
  cases h with
  | stops p _ hc hs => exact readRecord_stops m s hc hs
  | type n _ hn hs =>
    obtain ⟨r1, h1, g⟩ := Reader.readU8_ok hs
    exact ⟨{ s with reader := r1 }, by rw [readRecord, St.bind_of_ok (io_ok h1), ofU8_of_not_mem hn]; rfl, g, rfl, rfl, rfl, rfl⟩
  | announced n a b len _ hn hl hl' hs =>
    obtain ⟨ty, hty, -⟩ := ofU8_of_mem hn
    have hs1 : s.reader.stream = ofBytes [n] ++ (ofBytes [a] ++ (ofBytes [b] ++ (ofBytes (beBytes 2 len) ++ l))) := by
      rw [hs]; simp [ofBytes]
    obtain ⟨r1, h1, hs1⟩ := Reader.readU8_ok hs1
    obtain ⟨r2, h2, hs2⟩ := Reader.readU8_ok hs1
    obtain ⟨r3, h3, hs3⟩ := Reader.readU8_ok hs2
    obtain ⟨r4, h4, hs4⟩ := Reader.readBeU16_ok (by omega) hs3
    have hu : (UInt16.ofNat len).toNat = len := by simp only [UInt16.toNat_ofNat']; omega
    refine ⟨{ s with reader := r4 }, ?_, hs4, rfl, rfl, rfl, rfl⟩
    rw [readRecord, St.bind_of_ok (io_ok h1), hty]
    simp only
    rw [St.bind_of_ok (io_ok (s := { s with reader := r1 }) h2), St.bind_of_ok (io_ok (s := { s with reader := r2 }) h3),
      St.bind_of_ok (io_ok (s := { s with reader := r3 }) h4), if_pos (by rw [hu]; omega)]
    rfl
  | refused ty a b f _ _ hl hs hu =>
    obtain ⟨r', h1, h2⟩ := readRecord_front (m := m) (by omega) hs
    refine ⟨{ s with reader := r' }, ?_, h1, rfl, rfl, rfl, rfl⟩
    rw [h2, finish_run]
    have e : TlsReader.unprotect { s with reader := r' } ty a b f = s.unprotect ty a b f := rfl
    rw [e, hu]

/-! One round of the loop at a time. -/

theorem messageLoop_enough (m : Mode) (f g : Nat) (s : TlsReader) (hf : countBytes s.reader.stream < f) (hg : countBytes s.reader.stream < g) :
    (messageLoop m f).run s = (messageLoop m g).run s := by
  induction f generalizing g s with
  | zero => omega
  | succ f ih =>
    cases g with
    | zero => omega
    | succ g =>
      rw [messageLoop, messageLoop, St.bind_run, St.bind_run]
      rcases hr : (messageStep m).run s with ⟨x, s1⟩
      cases x with
      | ok o =>
        cases o with
        | some msg => rfl
        | none =>
          obtain ⟨rec, ht, -⟩ := messageStep_none hr
          have := TlsReader.Took.count ht
          simp only [List.length_singleton] at this
          exact ih g s1 (by omega) (by omega)
      | err k => rfl
      | panic => rfl
      | diverge => rfl

theorem readMessage_cut (m : Mode) {s : TlsReader} (h : MessageCut s.handshakeBuffer.buf) : (readMessage m).run s = (messageLoop m (s.reader.bytes + 1)).run s := by
  have hg : HandshakeBuffer.getMessage.run s.handshakeBuffer = (.ok none, s.handshakeBuffer) := getMessage_of_cut h
  have h1 : (onBuffer HandshakeBuffer.getMessage).run s = (.ok none, s) := by
    simp only [onBuffer, St.zoom_run, hg]
  rw [readMessage, St.bind_of_ok h1]
  rfl

theorem readMessage_step (m : Mode) {s : TlsReader} (h : MessageCut s.handshakeBuffer.buf) :
    (readMessage m).run s = ((messageStep m) >>= fun o => match o with | some msg => pure msg | none => messageLoop m s.reader.bytes : St TlsReader Message).run s := by
  rw [readMessage_cut m h, messageLoop, St.bind_run, St.bind_run]
  rcases (messageStep m).run s with ⟨x, s1⟩
  cases x with
  | ok o => cases o <;> rfl
  | err k => rfl
  | panic => rfl
  | diverge => rfl

/-- A handshake record only adds to what has been received. -/
theorem readMessage_more (m : Mode) {s s1 : TlsReader} {r : Record} (h : MessageCut s.handshakeBuffer.buf) (hr : (readRecord m).run s = (.ok r, s1)) (hty : r.contentType = .HandshakeTy)
    (hne : r.fragment ≠ []) : (readMessage m).run s = (readMessage m).run { s1 with handshakeBuffer := ⟨s1.handshakeBuffer.buf ++ r.fragment⟩ } := by
  rw [readMessage_step m h]
  have hcons := readRecord_consumes hr
  rcases hg : HandshakeBuffer.getMessage.run ⟨s1.handshakeBuffer.buf ++ r.fragment⟩ with ⟨y, b⟩
  have hg' : (onBuffer HandshakeBuffer.getMessage).run { s1 with handshakeBuffer := ⟨s1.handshakeBuffer.buf ++ r.fragment⟩ } = (y, { s1 with handshakeBuffer := b }) := by
    simp only [onBuffer, St.zoom_run, hg]
  have ha : (onBuffer (HandshakeBuffer.addRecord r.fragment)).run s1 = (.ok (), { s1 with handshakeBuffer := ⟨s1.handshakeBuffer.buf ++ r.fragment⟩ }) := rfl
  cases y with
  | ok o =>
    rw [St.bind_of_ok (messageStep_handshake hr hty hne hg), readMessage, St.bind_of_ok hg']
    cases o with
    | some msg => rfl
    | none =>
      have hb : b = ⟨s1.handshakeBuffer.buf ++ r.fragment⟩ := by
        have := getMessage_of_cut (getMessage_cut hg)
        rw [hg] at this
        exact (Prod.mk.inj this).2
      subst hb
      show (messageLoop m s.reader.bytes).run _ = (messageLoop m (s1.reader.bytes + 1)).run _
      refine messageLoop_enough m _ _ _ ?_ ?_
      · show countBytes s1.reader.stream < s.reader.bytes
        rw [Reader.bytes_eq]; omega
      · show countBytes s1.reader.stream < s1.reader.bytes + 1
        rw [Reader.bytes_eq]; omega
  | err k =>
    have : (messageStep m).run s = (.err k, { s1 with handshakeBuffer := b }) := by
      rw [messageStep, St.bind_of_ok hr]
      simp only [hty]
      rw [if_neg (by simpa using hne), St.bind_of_ok ha, St.bind_of_err hg']
    rw [St.bind_of_err this, readMessage, St.bind_of_err hg']
  | panic =>
    have : (messageStep m).run s = (.panic, { s1 with handshakeBuffer := b }) := by
      rw [messageStep, St.bind_of_ok hr]
      simp only [hty]
      rw [if_neg (by simpa using hne), St.bind_of_ok ha, St.bind_of_panic hg']
    rw [St.bind_of_panic this, readMessage, St.bind_of_panic hg']
  | diverge =>
    have : (messageStep m).run s = (.diverge, { s1 with handshakeBuffer := b }) := by
      rw [messageStep, St.bind_of_ok hr]
      simp only [hty]
      rw [if_neg (by simpa using hne), St.bind_of_ok ha, St.bind_of_diverge hg']
    rw [St.bind_of_diverge this, readMessage, St.bind_of_diverge hg']

theorem readMessage_other (m : Mode) {s s1 : TlsReader} {r : Record} {msg : Message} (h : MessageCut s.handshakeBuffer.buf) (hr : (readRecord m).run s = (.ok r, s1)) (hc : IsMessage r msg) :
    (readMessage m).run s = (.ok msg, s1) := by
  have : (messageStep m).run s = (.ok (some msg), s1) := by
    rw [messageStep, St.bind_of_ok hr]
    cases hc with
    | change h1 h2 => simp only [h1, h2]; rfl
    | alert level desc h1 h2 =>
      obtain ⟨t, h2⟩ := h2
      have h3 : alertMessage r.fragment = .ok (.AlertMessage ⟨level, desc⟩) := by
        rw [← h2]
        show alertMessage (levelNumber level :: alertNumber desc :: t) = _
        rw [alertMessage_cons, (level_iff _ level).mpr rfl, (description_iff _ desc).mpr rfl]
      simp only [h1, h3]
      rfl
    | data h1 => simp only [h1]; rfl
  rw [readMessage_step m h, St.bind_of_ok this]
  rfl

theorem readMessage_none (m : Mode) {s s1 : TlsReader} {r : Record} (h : MessageCut s.handshakeBuffer.buf) (hr : (readRecord m).run s = (.ok r, s1)) (hc : TlsReader.NoMessage r) :
    (readMessage m).run s = (.err .UnexpectedMessage, s1) := by
  have : (messageStep m).run s = (.err .UnexpectedMessage, s1) := by
    rw [messageStep, St.bind_of_ok hr]
    rcases hc with ⟨h1, h2⟩ | ⟨h1, h2⟩ | ⟨h1, h2⟩
    · have h3 : ccsMessage r.fragment = .err .UnexpectedMessage := by
        cases h3 : ccsMessage r.fragment with
        | ok a => 
          exfalso
          unfold ccsMessage at h3
          split at h3
          · cases h3
          · rename_i hn
            simp only [not_or, not_not] at hn
            obtain ⟨x, hx⟩ := List.length_eq_one_iff.mp hn.1
            rw [hx] at hn h2
            exact h2 (by rw [show x = 1 from hn.2])
        | err k => rw [(ccs_err h3).1]
        | panic => unfold ccsMessage at h3; split at h3 <;> cases h3
        | diverge => unfold ccsMessage at h3; split at h3 <;> cases h3
      simp only [h1, h3]
      rfl
    · have h3 : alertMessage r.fragment = .err .UnexpectedMessage := by
        cases h3 : alertMessage r.fragment with
        | ok a =>
          exfalso
          unfold alertMessage at h3
          split at h3
          · cases h3
          · split at h3
            · cases h3
            · rename_i hl
              match hf : r.fragment, hl with
              | [], hl => exact absurd (by decide : ([] : Bytes).length < 2) hl
              | [x], hl => exact absurd (by simp : [x].length < 2) hl
              | x :: y :: t, _ =>
                rw [hf] at h3
                simp only [List.getD_cons_zero, List.getD_cons_succ] at h3
                split at h3
                · rename_i level desc e1 e2
                  exact h2 level desc ⟨t, by rw [hf, (level_iff _ level).mp e1, (description_iff _ desc).mp e2]; rfl⟩
                · cases h3
        | err k => rw [(alert_err h3).1]
        | panic => rw [alertMessage.eq_def] at h3; split at h3; · cases h3
                   split at h3; · cases h3
                   simp only at h3
                   split at h3 <;> cases h3
        | diverge => rw [alertMessage.eq_def] at h3; split at h3; · cases h3
                     split at h3; · cases h3
                     simp only at h3
                     split at h3 <;> cases h3
      simp only [h1, h3]
      rfl
    · simp only [h1]
      rw [if_pos (by rw [h2]; rfl)]
      rfl
  rw [readMessage_step m h, St.bind_of_err this]

theorem took_same {s s1 : TlsReader} (h : Took s [] s1) : s1.reader.stream = s.reader.stream ∧ s1.decryptor = s.decryptor ∧ s1.readCount = s.readCount ∧ s1.iv = s.iv := by
  cases h with
  | nil a b c d => exact ⟨a, b, c, d⟩

/-- What `Comes` says is what `readMessage` does. -/
theorem Comes.run (m : Mode) {s s' : TlsReader} {x : Res Message} (h : Comes s x s') (hr : Room s) :
    ∃ t, (readMessage m).run s = (x, t) ∧ (x.Returns → Same t s') := by
  induction h with
  | @whole s s' ty body rest h hb hl hg hs =>
    have e : s.handshakeBuffer = ⟨handshakeBytes ty body ++ rest⟩ := by cases hq : s.handshakeBuffer; rw [hq] at hb; rw [← hb]
    have h1 : (onBuffer HandshakeBuffer.getMessage).run s = (.ok (some h), { s with handshakeBuffer := ⟨rest⟩ }) := by
      simp only [onBuffer, St.zoom_run, e, getMessage_whole ty body rest hl (handshakeRead_good hg)]
      rfl
    exact ⟨_, by rw [readMessage, St.bind_of_ok h1]; rfl, fun _ => Same.symm hs⟩
  | @bad s s' ty body rest k hb hl hg hs =>
    have e : s.handshakeBuffer = ⟨handshakeBytes ty body ++ rest⟩ := by cases hq : s.handshakeBuffer; rw [hq] at hb; rw [← hb]
    have h1 : (onBuffer HandshakeBuffer.getMessage).run s = (.err k, { s with handshakeBuffer := ⟨rest⟩ }) := by
      simp only [onBuffer, St.zoom_run, e, getMessage_whole ty body rest hl (handshakeRead_bad hg)]
      rfl
    exact ⟨_, by rw [readMessage, St.bind_of_err h1], fun _ => Same.symm hs⟩
  | @more s s1 s' r x hc ht hty hne hb hk ih =>
    obtain ⟨r', h1, h2⟩ := ht.record (m := m) (fun _ => by unfold Room at hr; omega)
    obtain ⟨t, h3, h4⟩ := ih (Took.room ht 1 hr)
    rw [readMessage_more m hc h1 hty hne]
    obtain ⟨g1, g2, g3, g4⟩ := took_same h2
    have hsame : Same { s with reader := r', readCount := s.readCount + 1, handshakeBuffer := ⟨s.handshakeBuffer.buf ++ r.fragment⟩ } s1 :=
      ⟨g1.symm, g2.symm, g3.symm, by cases hq : s1.handshakeBuffer; rw [hq] at hb; exact congrArg HandshakeBuffer.mk hb.symm, g4.symm⟩
    obtain ⟨q1, q2⟩ := readMessage_respects m _ _ hsame
    rw [h3] at q1 q2
    refine ⟨((readMessage m).run { s with reader := r', readCount := s.readCount + 1, handshakeBuffer := ⟨s.handshakeBuffer.buf ++ r.fragment⟩ }).2, ?_, fun hx => ?_⟩
    · exact Prod.ext q1 rfl
    · exact Same.trans q2 (h4 hx)
  | @message s s' r msg hc ht hb hcar =>
    obtain ⟨r', h1, h2⟩ := ht.record (m := m) (fun _ => by unfold Room at hr; omega)
    obtain ⟨g1, g2, g3, g4⟩ := took_same h2
    exact ⟨_, readMessage_other m hc h1 hcar, fun _ => ⟨g1.symm, g2.symm, g3.symm, hb.symm, g4.symm⟩⟩
  | @noMessage s s' r hc ht hb hno =>
    obtain ⟨r', h1, h2⟩ := ht.record (m := m) (fun _ => by unfold Room at hr; omega)
    obtain ⟨g1, g2, g3, g4⟩ := took_same h2
    exact ⟨_, readMessage_none m hc h1 hno, fun _ => ⟨g1.symm, g2.symm, g3.symm, hb.symm, g4.symm⟩⟩
  | @noRecord s s' k l hc hbad hleft =>
    obtain ⟨t, ht, hl⟩ := badRecord_run m hbad
    refine ⟨t, by rw [readMessage_step m hc, St.bind_of_err (by rw [messageStep, St.bind_of_err ht])], fun _ => ?_⟩
    obtain ⟨a1, a2, a3, a4, a5⟩ := hleft
    obtain ⟨b1, b2, b3, b4, b5⟩ := hl
    exact ⟨b1.trans a1.symm, b2.trans a2.symm, b3.trans a3.symm, b4.trans a4.symm, b5.trans a5.symm⟩
  | @overlong s s' ty a b f l hc hf hs hu =>
    obtain ⟨r', h1, h2⟩ := readRecord_front (m := m) (by have hE : ENC_RECORD_MAX_LEN = 18432 := rfl; omega) hs
    have h3 : (readRecord m).run s = (.panic, { s with reader := r' }) := by
      rw [h2, finish_run]
      have e : TlsReader.unprotect { s with reader := r' } ty a b f = s.unprotect ty a b f := rfl
      rw [e, hu]
    exact ⟨_, by rw [readMessage_step m hc, St.bind_of_panic (by rw [messageStep, St.bind_of_panic h3])], fun e => e.elim⟩

/-- The keys, if there are any, are of the right size. -/
def SoundKeys (s : TlsReader) : Prop := s.decryptor = none ∨ ∃ m key, s.decryptor = some (.chacha m key) ∧ key.length = 32

theorem buffer_cases (buf : Bytes) : MessageCut buf ∨ ∃ ty body rest, buf = handshakeBytes ty body ++ rest ∧ body.length < 2 ^ 24 := by
  by_cases hc : MessageCut buf
  · exact Or.inl hc
  · right
    have hc := not_or.mp hc
    have hl : 4 ≤ buf.length := by have := hc.1; omega
    obtain ⟨ty, t, rfl⟩ : ∃ ty t, buf = ty :: t := by
      cases hb : buf with
      | nil => rw [hb] at hl; simp at hl
      | cons ty t => exact ⟨ty, t, rfl⟩
    have hw := hc.2
    simp only [List.length_cons, List.drop_succ_cons, List.drop_zero] at hl hw
    have h3 : (t.take 3).length = 3 := by rw [List.length_take]; omega
    have hbd : (beNat (t.take 3)) < 2 ^ 24 := by have := beNat_lt (t.take 3); rw [h3] at this; exact this
    have hbl : ((t.drop 3).take (beNat (t.take 3))).length = beNat (t.take 3) := by rw [List.length_take, List.length_drop]; omega
    refine ⟨ty, (t.drop 3).take (beNat (t.take 3)), (t.drop 3).drop (beNat (t.take 3)), ?_, by omega⟩
    have hbe : beBytes 3 (beNat (t.take 3)) = t.take 3 := by have := beBytes_beNat (t.take 3); rwa [h3] at this
    rw [handshakeBytes, hbl, hbe, List.cons_append, List.append_assoc, List.take_append_drop, List.take_append_drop]

theorem handshakeRead_ok {ty : UInt8} {body : Bytes} {h : Handshake} (hx : ((TlsItem.read (α := Handshake)).run (handshakeBytes ty body)).1 = .ok h) : GoodBody ty body h := by
  rw [handshakeRead_run, St.bind_run] at hx
  rcases hr : (Handshake.readArm ty.toNat).run body with ⟨y, rest⟩
  rw [hr] at hx
  cases y with
  | err k => cases hx
  | panic => cases hx
  | diverge => cases hx
  | ok a =>
    have hk : ty.toNat ∈ knownTypes := by
      by_contra hk
      rw [readArm_unknown _ hk] at hr
      cases hr
    cases rest with
    | nil =>
      cases hx
      exact ⟨hk, hr⟩
    | cons x rest =>
      simp only [Handshake.checkEnd] at hx
      rw [show (Item.readNum 1).run (x :: rest) = (.ok (beNat [x]), rest) by
        rw [Item.readNum, St.bind_of_ok (s' := rest) (a := [x]) (by simp [Item.readExact]), St.pure_run]] at hx
      cases hx

theorem Took.right {s s1 s2 : TlsReader} {recs : List Record} (e : s2.reader.stream = s1.reader.stream) (a : s2.decryptor = s1.decryptor) (b : s2.readCount = s1.readCount)
    (c : s2.iv = s1.iv) (h : Took s recs s1) : Took s recs s2 := by
  have := h.trans (.nil (s := s1) (s' := s2) e a b c)
  rwa [List.append_nil] at this

theorem record_cases (r : Record) : (r.contentType = .HandshakeTy ∧ r.fragment ≠ []) ∨ (∃ msg, IsMessage r msg) ∨ TlsReader.NoMessage r := by
  cases hty : r.contentType with
  | HandshakeTy =>
    by_cases h : r.fragment = []
    · exact Or.inr (Or.inr (Or.inr (Or.inr ⟨hty, h⟩)))
    · exact Or.inl ⟨rfl, h⟩
  | ChangeCipherSpecTy =>
    by_cases h : r.fragment = [1]
    · exact Or.inr (Or.inl ⟨_, .change hty h⟩)
    · exact Or.inr (Or.inr (Or.inl ⟨hty, h⟩))
  | AlertTy =>
    by_cases h : ∃ (level : AlertLevel) (desc : AlertDescription), [levelNumber level, alertNumber desc] <+: r.fragment
    · obtain ⟨level, desc, h⟩ := h
      exact Or.inr (Or.inl ⟨_, .alert level desc hty h⟩)
    · exact Or.inr (Or.inr (Or.inr (Or.inl ⟨hty, fun level desc hp => h ⟨level, desc, hp⟩⟩)))
  | ApplicationDataTy => exact Or.inr (Or.inl ⟨_, .data hty⟩)

/-- Something comes: what `readMessage` returns. -/
theorem comes_total (m : Mode) (s : TlsReader) (hk : SoundKeys s) (hr : Room s) : Comes s ((readMessage m).run s).1 ((readMessage m).run s).2 := by
  generalize hn : countBytes s.reader.stream = n
  induction n using Nat.strong_induction_on generalizing s with
  | _ n ih =>
  rcases buffer_cases s.handshakeBuffer.buf with hc | ⟨ty, body, rest, hb, hl⟩
  rotate_left
  · have e : s.handshakeBuffer = ⟨handshakeBytes ty body ++ rest⟩ := by cases hq : s.handshakeBuffer; rw [hq] at hb; rw [← hb]
    have hret := C10_total s.handshakeBuffer
    have hg := getMessage_whole ty body rest hl (x := ((TlsItem.read (α := Handshake)).run (handshakeBytes ty body)).1) rfl
    rw [e, hg] at hret
    cases hx : ((TlsItem.read (α := Handshake)).run (handshakeBytes ty body)).1 with
    | panic => rw [hx] at hret; exact hret.elim
    | diverge => rw [hx] at hret; exact hret.elim
    | ok h =>
      rw [hx] at hg
      have h1 : (onBuffer HandshakeBuffer.getMessage).run s = (.ok (some h), { s with handshakeBuffer := ⟨rest⟩ }) := by
        simp only [onBuffer, St.zoom_run, e, hg]
        rfl
      rw [readMessage, St.bind_of_ok h1]
      exact .whole hb hl (handshakeRead_ok hx) (Same.refl _)
    | err k =>
      rw [hx] at hg
      have h1 : (onBuffer HandshakeBuffer.getMessage).run s = (.err k, { s with handshakeBuffer := ⟨rest⟩ }) := by
        simp only [onBuffer, St.zoom_run, e, hg]
        rfl
      rw [readMessage, St.bind_of_err h1]
      exact .bad hb hl (handshakeRead_err (len := beBytes 3 body.length) (beBytes_length _ _) hx) (Same.refl _)
  · have hE : ENC_RECORD_MAX_LEN = 18432 := rfl
    rcases hrec : (readRecord m).run s with ⟨y, s1⟩
    cases y with
    | err k =>
      rw [readMessage_step m hc, St.bind_of_err (by rw [messageStep, St.bind_of_err hrec])]
      obtain ⟨g1, g2, g3, g4, g5⟩ := readRecord_err hrec
      exact .noRecord hc g1 ⟨rfl, g2, g5, g4, g3⟩
    | panic =>
      rw [readMessage_step m hc, St.bind_of_panic (by rw [messageStep, St.bind_of_panic hrec])]
      obtain ⟨ty, a, b, f, l, g1, g2, g3⟩ := readRecord_unprotect hrec (by unfold Room at hr; omega)
      exact .overlong hc (by omega) g2 g3
    | diverge =>
      exfalso
      obtain ⟨d, n, f, ad, h1, h2, h3, h4⟩ := readRecord_diverge hrec
      rcases hk with hk | ⟨m', key, hk, hkl⟩
      · rw [hk] at h1; cases h1
      · rw [hk] at h1
        cases h1
        have := decrypt_chacha_returns m' key n f ad hkl h3 h2
        rw [h4] at this
        exact this
    | ok r =>
      obtain ⟨ht, hbuf⟩ := readRecord_took hrec
      rcases record_cases r with ⟨hty, hne⟩ | ⟨msg, hcar⟩ | hno
      · have hcons := readRecord_consumes hrec
        rw [readMessage_more m hc hrec hty hne]
        refine .more (s1 := { s1 with handshakeBuffer := ⟨s1.handshakeBuffer.buf ++ r.fragment⟩ }) hc ?_ hty hne (by rw [hbuf]) ?_
        · exact Took.right (s1 := s1) rfl rfl rfl rfl ht
        · have hd := Took.decryptor ht
          exact ih (countBytes s1.reader.stream) (by omega) _ (by unfold SoundKeys; rw [show ({ s1 with handshakeBuffer := ⟨s1.handshakeBuffer.buf ++ r.fragment⟩ } : TlsReader).decryptor = s.decryptor from hd]; exact hk)
            (Took.room ht 1 hr) rfl
      · rw [readMessage_other m hc hrec hcar]
        exact .message hc ht hbuf hcar
      · rw [readMessage_none m hc hrec hno]
        exact .noMessage hc ht hbuf hno

/-! ### Proof: the handshake -/

/-- The same on a reader that differs in how its bytes are cut. -/
theorem Comes.runs (m : Mode) {s s' t : TlsReader} {x : Res Message} (h : Comes s x s') (hr : Room s) (ht : Same t s) :
    ∃ t', (readMessage m).run t = (x, t') ∧ (x.Returns → Same t' s') := by
  obtain ⟨u, h1, h2⟩ := h.run m hr
  obtain ⟨q1, q2⟩ := readMessage_respects m _ _ ht
  rw [h1] at q1 q2
  exact ⟨((readMessage m).run t).2, Prod.ext q1 rfl, fun hx => Same.trans q2 (h2 hx)⟩

theorem Comes.kept {s s' : TlsReader} {msg : Message} (h : Comes s (.ok msg) s') (hr : Room s) : Room s' ∧ s'.decryptor = s.decryptor ∧ s'.iv = s.iv := by
  obtain ⟨u, h1, h2⟩ := h.run .release hr
  have h2 := h2 trivial
  obtain ⟨recs, h3, -⟩ := readMessage_inv h1
  have := Took.same h3
  exact ⟨Room.same h2 (Took.room h3 1 hr), h2.2.1.symm.trans this.1, h2.2.2.2.2.symm.trans this.2⟩

section
variable {m : Mode} {rd : Reader} {wr : Writer} {cr rest : Bytes}

theorem room_new (hn : countBytes rd.stream + 1 < 2 ^ 64) : Room (TlsReader.new rd) := by show 0 + countBytes rd.stream + 1 < _; omega

/-- A flight that does not come to its end. -/
theorem new_of_readFlight (hfa : wr.faults = []) (hcr : cr.length = 32) {y : Res ServerFlight} (hy : ∀ f, y ≠ .ok f)
    (h : ∀ c : TlsClient, c.reader = TlsReader.new rd → c.rng = ⟨rest⟩ → ∃ c', (readFlight m).run c = (y, c')) :
    (TlsClient.new m rd wr ⟨cr ++ rest⟩).1 = (y >>= fun _ => .ok ()) := by
  obtain ⟨w', hsh, _⟩ := after_hello m rd wr ⟨cr ++ rest⟩ hfa rfl hcr
  obtain ⟨c', he⟩ := h { fresh rd wr ⟨cr ++ rest⟩ with rng := ⟨rest⟩, writer := w' } rfl rfl
  refine new_result hfa (c := c') ?_
  rw [handshake, St.bind_of_ok hsh]
  dsimp only
  rw [St.bind_run, he]
  cases y with
  | ok f => exact absurd rfl (hy f)
  | _ => rfl

/-- The runs behind a flight. -/
theorem FlightComes.reads {f : ServerFlight} {s : TlsReader} {rng' : Rng} (h : FlightComes m rd rest f s rng') (hn : countBytes rd.stream + 1 < 2 ^ 64) :
    ∃ s1 s2 s3 t, (∀ c : TlsClient, c.reader = TlsReader.new rd → c.rng = ⟨rest⟩ → FlightRead m c f s1 s2 s3 t rng') ∧ Same t s ∧ Room s ∧ s.decryptor = none ∧ s.iv = none := by
  obtain ⟨s1, s2, s3, h1, h2, h3, h4⟩ := h.came
  have r0 := room_new hn
  obtain ⟨r1, d1, i1⟩ := h1.kept r0
  obtain ⟨r2, d2, i2⟩ := h2.kept r1
  obtain ⟨r3, d3, i3⟩ := h3.kept r2
  obtain ⟨r4, d4, i4⟩ := h4.kept r3
  obtain ⟨t1, g1, e1⟩ := h1.runs m r0 (Same.refl _)
  obtain ⟨t2, g2, e2⟩ := h2.runs m r1 (e1 trivial)
  obtain ⟨t3, g3, e3⟩ := h3.runs m r2 (e2 trivial)
  obtain ⟨t4, g4, e4⟩ := h4.runs m r3 (e3 trivial)
  refine ⟨t1, t2, t3, t4, fun c hc hr => ⟨by rw [hc]; exact g1, h.agreed, g2, g3, by rw [hr]; exact h.keys, g4⟩, e4 trivial, r4, ?_, ?_⟩
  · rw [d4, d3, d2, d1]; rfl
  · rw [i4, i3, i2, i1]; rfl

/-- With the first flight complete and the client's second flight sent, reading the server's second flight is left. -/
theorem FlightComes.handshake {f : ServerFlight} {s : TlsReader} {rng' : Rng} (h : FlightComes m rd rest f s rng') (hn : countBytes rd.stream + 1 < 2 ^ 64) (hfa : wr.faults = [])
    (hcr : cr.length = 32) : ∃ pub t w', FlightFit f pub ∧ Same t { s with iv := some (f.keys cr).serverIv } ∧
      (handshake m).run (fresh rd wr ⟨cr ++ rest⟩) = (readFinished m (f.master cr) (f.keys cr).serverKey (f.messages cr pub) (.finished ⟨f.clientVerify cr pub⟩)).run
        { fresh rd wr ⟨cr ++ rest⟩ with writer := w', rng := rng', reader := t } := by
  obtain ⟨s1, s2, s3, t, hR, hs, -⟩ := h.reads hn
  obtain ⟨wh, hsh, hwr⟩ := after_hello m rd wr ⟨cr ++ rest⟩ hfa rfl hcr
  have hR := hR { fresh rd wr ⟨cr ++ rest⟩ with rng := ⟨rest⟩, writer := wh } rfl rfl
  obtain ⟨X, Y, hfit, _⟩ := hR.fit
  have hfr := fresh_fresh rd wr ⟨cr ++ rest⟩
  rcases sendFinished_cases m cr f _ hcr hfit { fresh rd wr ⟨cr ++ rest⟩ with rng := rng', writer := wh, reader := t } (hwr.encryptor.trans hfr.encryptor) (hwr.iv.trans hfr.writerIv)
      (hR.same.2.trans hfr.readerIv) (by show wh.writeCount.toNat ≤ 1; rw [hwr.count, hfr.count]; decide) with ⟨w', g1, -⟩ | ⟨c', n, g1, g2, _⟩
  rotate_left
  · exact absurd (hwr.faults hfa) g2
  refine ⟨_, { t with iv := some (f.keys cr).serverIv }, w', hfit, ⟨hs.1, hs.2.1, hs.2.2.1, hs.2.2.2.1, rfl⟩, ?_⟩
  rw [TlsClient.handshake, St.bind_of_ok hsh]
  dsimp only
  rw [St.bind_of_ok (readFlight_ok hR)]
  rw [St.bind_of_ok g1]

/-- With the ChangeCipherSpec come too. -/
theorem FlightComes.changed {f : ServerFlight} {s s1 : TlsReader} {rng' : Rng} (h : FlightComes m rd rest f s rng')
    (hc : Comes { s with iv := some (f.keys cr).serverIv } (.ok .ChangeCipherSpecMessage) s1) (hn : countBytes rd.stream + 1 < 2 ^ 64) (hcr : cr.length = 32) :
    Room (keyed m s1 (f.keys cr).serverKey) ∧ SoundKeys (keyed m s1 (f.keys cr).serverKey) := by
  obtain ⟨_, _, _, t, hR, hs, hr, -⟩ := h.reads hn
  obtain ⟨X, Y, hfit, _⟩ := (hR { fresh rd {} ⟨rest⟩ with rng := ⟨rest⟩ } rfl rfl).fit
  have hr1 := (hc.kept hr).1
  refine ⟨?_, Or.inr ⟨m, _, rfl, (hfit.keys_length hcr).2.1⟩⟩
  unfold Room at *
  show 0 + countBytes s1.reader.stream + 1 < _
  omega

/-- What `Ends` says is what `new` returns. -/
theorem Ends.new {x : Res Unit} (h : Ends m rd cr rest x) (hn : countBytes rd.stream + 1 < 2 ^ 64) (hfa : wr.faults = []) (hcr : cr.length = 32) :
    (TlsClient.new m rd wr ⟨cr ++ rest⟩).1 = x := by
  have r0 := room_new hn
  cases h with
  | hello h1 hne =>
    obtain ⟨t1, g1, -⟩ := h1.runs m r0 (Same.refl _)
    exact new_of_flight m rd wr _ hfa rfl hcr fun c hc _ => flight_not_hello (by rw [hc]; exact g1) hne
  | parameters h1 hna =>
    obtain ⟨t1, g1, -⟩ := h1.runs m r0 (Same.refl _)
    refine new_of_readFlight (y := .err .IllegalParameter) hfa hcr (by simp) fun c hc _ => ⟨{ c with reader := t1 }, ?_⟩
    rw [readFlight, St.bind_of_ok (onReader_ok (expectServerHello_iff.mpr (by rw [hc]; exact g1))), checkServerHello_eq, if_neg (show ¬ (_ ∧ _ ∧ _) from hna)]
    rfl
  | certificate h1 ha h2 hne =>
    obtain ⟨r1, -⟩ := h1.kept r0
    obtain ⟨t1, g1, e1⟩ := h1.runs m r0 (Same.refl _)
    obtain ⟨t2, g2, -⟩ := h2.runs m r1 (e1 trivial)
    exact new_of_flight m rd wr _ hfa rfl hcr fun c hc _ => flight_not_certificate (by rw [hc]; exact g1) ha g2 hne
  | keyExchange h1 ha h2 h3 hne =>
    obtain ⟨r1, -⟩ := h1.kept r0
    obtain ⟨r2, -⟩ := h2.kept r1
    obtain ⟨t1, g1, e1⟩ := h1.runs m r0 (Same.refl _)
    obtain ⟨t2, g2, e2⟩ := h2.runs m r1 (e1 trivial)
    obtain ⟨t3, g3, -⟩ := h3.runs m r2 (e2 trivial)
    exact new_of_flight m rd wr _ hfa rfl hcr fun c hc _ => flight_not_keyExchange (by rw [hc]; exact g1) ha g2 g3 hne
  | @keys sh certs ske s1 s2 s3 y rng' h1 ha h2 h3 hk hne =>
    obtain ⟨r1, -⟩ := h1.kept r0
    obtain ⟨r2, -⟩ := h2.kept r1
    obtain ⟨t1, g1, e1⟩ := h1.runs m r0 (Same.refl _)
    obtain ⟨t2, g2, e2⟩ := h2.runs m r1 (e1 trivial)
    obtain ⟨t3, g3, -⟩ := h3.runs m r2 (e2 trivial)
    have hy : (y >>= fun _ => (.ok () : Res Unit)) = ((y >>= fun _ => .diverge : Res ServerFlight) >>= fun _ => .ok ()) := by
      cases y with
      | ok k => exact absurd rfl (hne k)
      | _ => rfl
    rw [hy]
    refine new_of_readFlight hfa hcr (by intro f; cases y <;> simp [bind, Res.bind]) fun c hc hr => ⟨{ c with reader := t3, rng := rng' }, ?_⟩
    rw [readFlight, St.bind_of_ok (onReader_ok (expectServerHello_iff.mpr (by rw [hc]; exact g1))), checkServerHello_eq, if_pos (show _ ∧ _ ∧ _ from ha), St.bind_of_ok (St.lift_run _ _),
      St.bind_of_ok (onReader_ok (c := { c with reader := t1 }) (expectCertificate_iff.mpr g2)),
      St.bind_of_ok (onReader_ok (c := { c with reader := t2 }) (expectServerKeyExchange_iff.mpr g3)), St.bind_run,
      onRng_ok (c := { c with reader := t3 }) (by show _ = (y, rng'); rw [← hk]; exact congrArg _ hr)]
    cases y with
    | ok k => exact absurd rfl (hne k)
    | _ => rfl
  | done h1 ha h2 h3 hk h4 hne =>
    obtain ⟨r1, -⟩ := h1.kept r0
    obtain ⟨r2, -⟩ := h2.kept r1
    obtain ⟨r3, -⟩ := h3.kept r2
    obtain ⟨t1, g1, e1⟩ := h1.runs m r0 (Same.refl _)
    obtain ⟨t2, g2, e2⟩ := h2.runs m r1 (e1 trivial)
    obtain ⟨t3, g3, e3⟩ := h3.runs m r2 (e2 trivial)
    obtain ⟨t4, g4, -⟩ := h4.runs m r3 (e3 trivial)
    exact new_of_flight m rd wr _ hfa rfl hcr fun c hc hr => flight_not_done (by rw [hc]; exact g1) ha g2 g3 (by rw [hr]; exact hk) g4 hne
  | @change f s s1 rng' x hf h1 hne =>
    obtain ⟨_, _, _, _, -, -, hr, -⟩ := hf.reads hn
    obtain ⟨pub, t, w', hfit, hs, hh⟩ := hf.handshake (wr := wr) (cr := cr) hn hfa hcr
    obtain ⟨t1, g1, -⟩ := h1.runs m hr hs
    refine new_result hfa (c := { fresh rd wr ⟨cr ++ rest⟩ with writer := w', rng := rng', reader := t1 }) ?_
    rw [hh, readFinished, bind_refused (onReader_ok (c := { fresh rd wr ⟨cr ++ rest⟩ with writer := w', rng := rng', reader := t }) (readChangeCipherSpec_fails g1 hne))]
  | @noChange f s s1 rng' msg hf h1 hne =>
    obtain ⟨_, _, _, _, -, -, hr, -⟩ := hf.reads hn
    obtain ⟨pub, t, w', hfit, hs, hh⟩ := hf.handshake (wr := wr) (cr := cr) hn hfa hcr
    obtain ⟨t1, g1, -⟩ := h1.runs m hr hs
    refine new_result hfa (c := { fresh rd wr ⟨cr ++ rest⟩ with writer := w', rng := rng', reader := t1 }) ?_
    rw [hh, readFinished, St.bind_of_err (onReader_ok (c := { fresh rd wr ⟨cr ++ rest⟩ with writer := w', rng := rng', reader := t }) (readChangeCipherSpec_other g1 hne))]
  | @finished f s s1 s2 rng' x hf h1 h2 hne =>
    obtain ⟨_, _, _, _, -, -, hr, hd, -⟩ := hf.reads hn
    obtain ⟨pub, t, w', hfit, hs, hh⟩ := hf.handshake (wr := wr) (cr := cr) hn hfa hcr
    obtain ⟨t1, g1, e1⟩ := h1.runs m hr hs
    have e1 := e1 trivial
    obtain ⟨t2, g2, -⟩ := h2.runs m (hf.changed h1 hn hcr).1 (t := keyed m t1 (f.keys cr).serverKey) ⟨e1.1, rfl, rfl, e1.2.2.2.1, e1.2.2.2.2⟩
    refine new_result hfa (c := { fresh rd wr ⟨cr ++ rest⟩ with writer := w', rng := rng', reader := t2 }) ?_
    rw [hh, readFinished_keyed m _ _ _ _ _ t1 (e1.2.1.trans ((h1.kept hr).2.1.trans hd)) g1,
      bind_refused (onReader_ok (c := { fresh rd wr ⟨cr ++ rest⟩ with writer := w', rng := rng', reader := keyed m t1 (f.keys cr).serverKey }) (expectFinished_other g2 hne))]
  | @verify f s s1 s2 rng' pub' vd hf hp h1 h2 hne =>
    obtain ⟨_, _, _, _, -, -, hr, hd, -⟩ := hf.reads hn
    obtain ⟨pub, t, w', hfit, hs, hh⟩ := hf.handshake (wr := wr) (cr := cr) hn hfa hcr
    have hpub : pub' = pub := by have := hp.symm.trans hfit.key; exact (List.cons.inj this).2
    subst hpub
    obtain ⟨t1, g1, e1⟩ := h1.runs m hr hs
    have e1 := e1 trivial
    obtain ⟨t2, g2, -⟩ := h2.runs m (hf.changed h1 hn hcr).1 (t := keyed m t1 (f.keys cr).serverKey) ⟨e1.1, rfl, rfl, e1.2.2.2.1, e1.2.2.2.2⟩
    refine new_result hfa (c := { fresh rd wr ⟨cr ++ rest⟩ with writer := w', rng := rng', reader := t2 }) ?_
    rw [hh, readFinished_eq hfit hcr (hs.2.1.trans hd) g1 g2, if_neg hne]
  | @connected f s s1 s2 rng' pub' vd hf hp h1 h2 he =>
    obtain ⟨_, _, _, _, -, -, hr, hd, -⟩ := hf.reads hn
    obtain ⟨pub, t, w', hfit, hs, hh⟩ := hf.handshake (wr := wr) (cr := cr) hn hfa hcr
    have hpub : pub' = pub := by have := hp.symm.trans hfit.key; exact (List.cons.inj this).2
    subst hpub
    obtain ⟨t1, g1, e1⟩ := h1.runs m hr hs
    have e1 := e1 trivial
    obtain ⟨t2, g2, -⟩ := h2.runs m (hf.changed h1 hn hcr).1 (t := keyed m t1 (f.keys cr).serverKey) ⟨e1.1, rfl, rfl, e1.2.2.2.1, e1.2.2.2.2⟩
    refine new_result hfa (c := { fresh rd wr ⟨cr ++ rest⟩ with writer := w', rng := rng', reader := t2 }) ?_
    rw [hh, readFinished_eq hfit hcr (hs.2.1.trans hd) g1 g2, if_pos he]

/-- Every handshake ends. -/
theorem ends_total (m : Mode) (rd : Reader) (cr rest : Bytes) (hn : countBytes rd.stream + 1 < 2 ^ 64) (hcr : cr.length = 32) : ∃ x, Ends m rd cr rest x := by
  have r0 := room_new hn
  have next : ∀ s : TlsReader, Room s → SoundKeys s → ∃ x s', Comes s x s' := fun s hr hk => ⟨_, _, comes_total m s hk hr⟩
  obtain ⟨x1, s1, h1⟩ := next _ r0 (Or.inl rfl)
  by_cases hne1 : ∀ d, x1 ≠ .ok (.HandshakeMessage (.server_hello d))
  · exact ⟨_, .hello h1 hne1⟩
  obtain ⟨sh, hd⟩ := Classical.not_forall.mp hne1
  cases Classical.not_not.mp hd
  by_cases ha : Agreed sh
  rotate_left
  · exact ⟨_, .parameters h1 ha⟩
  obtain ⟨r1, d1, -⟩ := h1.kept r0
  obtain ⟨x2, s2, h2⟩ := next s1 r1 (Or.inl (d1.trans rfl))
  by_cases hne2 : ∀ d, x2 ≠ .ok (.HandshakeMessage (.certificate d))
  · exact ⟨_, .certificate h1 ha h2 hne2⟩
  obtain ⟨certs, hd⟩ := Classical.not_forall.mp hne2
  cases Classical.not_not.mp hd
  obtain ⟨r2, d2, -⟩ := h2.kept r1
  obtain ⟨x3, s3, h3⟩ := next s2 r2 (Or.inl (d2.trans (d1.trans rfl)))
  by_cases hne3 : ∀ d, x3 ≠ .ok (.HandshakeMessage (.server_key_exchange d))
  · exact ⟨_, .keyExchange h1 ha h2 h3 hne3⟩
  obtain ⟨ske, hd⟩ := Classical.not_forall.mp hne3
  cases Classical.not_not.mp hd
  obtain ⟨r3, d3, -⟩ := h3.kept r2
  rcases hk : (Ecdhe.computeKeys m ske.data).run ⟨rest⟩ with ⟨y, rng'⟩
  by_cases hney : ∀ k, y ≠ .ok k
  · exact ⟨_, .keys h1 ha h2 h3 hk hney⟩
  obtain ⟨⟨kd, pms⟩, hd⟩ := Classical.not_forall.mp hney
  cases Classical.not_not.mp hd
  obtain ⟨x4, s4, h4⟩ := next s3 r3 (Or.inl (d3.trans (d2.trans (d1.trans rfl))))
  by_cases hne4 : ∀ d, x4 ≠ .ok (.HandshakeMessage (.server_hello_done d))
  · exact ⟨_, .done h1 ha h2 h3 hk h4 hne4⟩
  obtain ⟨⟨⟩, hd⟩ := Classical.not_forall.mp hne4
  cases Classical.not_not.mp hd
  obtain ⟨r4, d4, -⟩ := h4.kept r3
  obtain ⟨f, hf⟩ : ∃ f : ServerFlight, f = { hello := sh, certs := certs, ske := ske, keyData := kd, preMasterSecret := pms } := ⟨_, rfl⟩
  have hF : FlightComes m rd rest f s4 rng' := by subst hf; exact ⟨⟨s1, s2, s3, h1, h2, h3, h4⟩, ha, hk⟩
  clear hf
  obtain ⟨x5, s5, h5⟩ := next { s4 with iv := some (f.keys cr).serverIv } r4 (Or.inl (d4.trans (d3.trans (d2.trans (d1.trans rfl)))))
  by_cases hne5 : ∀ msg, x5 ≠ .ok msg
  · exact ⟨_, .change hF h5 hne5⟩
  obtain ⟨msg, hd⟩ := Classical.not_forall.mp hne5
  cases Classical.not_not.mp hd
  by_cases hmsg : msg = .ChangeCipherSpecMessage
  rotate_left
  · exact ⟨_, .noChange hF h5 hmsg⟩
  subst hmsg
  obtain ⟨r6, k6⟩ := hF.changed h5 hn hcr
  obtain ⟨x6, s6, h6⟩ := next _ r6 k6
  by_cases hne6 : ∀ d, x6 ≠ .ok (.HandshakeMessage (.finished d))
  · exact ⟨_, .finished hF h5 h6 hne6⟩
  obtain ⟨⟨vd⟩, hd⟩ := Classical.not_forall.mp hne6
  cases Classical.not_not.mp hd
  obtain ⟨pub, _, _, hfit, -⟩ := hF.handshake (wr := {}) (cr := cr) hn rfl hcr
  by_cases hv : vd = f.serverVerify cr pub
  · exact ⟨_, .connected hF hfit.key h5 h6 hv⟩
  · exact ⟨_, .verify hF hfit.key h5 h6 hv⟩

end

/-! ### C107 -/

/-- C107: what is read is what comes, whatever the transport delivers. -/
theorem C107_message (m : Mode) (s : TlsReader) (x : Res Message) (hk : SoundKeys s) (hr : Room s) : ((readMessage m).run s).1 = x ↔ ∃ s', Comes s x s' := by
  constructor
  · rintro rfl
    exact ⟨_, comes_total m s hk hr⟩
  · rintro ⟨s', h⟩
    obtain ⟨t, h1, -⟩ := h.run m hr
    rw [h1]

/-- C107: `new` returns what `Ends` says, and nothing else, when the client's transport takes everything. -/
theorem C107_outcome (m : Mode) (rd : Reader) (wr : Writer) (cr rest : Bytes) (x : Res Unit) (hfa : wr.faults = []) (hcr : cr.length = 32) (hn : countBytes rd.stream + 1 < 2 ^ 64) :
    (TlsClient.new m rd wr ⟨cr ++ rest⟩).1 = x ↔ Ends m rd cr rest x := by
  constructor
  · intro h
    obtain ⟨y, hy⟩ := ends_total m rd cr rest hn hcr
    rw [← h, hy.new hn hfa hcr]
    exact hy
  · exact fun h => h.new hn hfa hcr

/-- C107: so the causes exclude each other: the handshake ends in exactly one way. -/
theorem C107_unique (m : Mode) (rd : Reader) (cr rest : Bytes) (hcr : cr.length = 32) (hn : countBytes rd.stream + 1 < 2 ^ 64) :
    ∃ x, Ends m rd cr rest x ∧ ∀ y, Ends m rd cr rest y → y = x := by
  obtain ⟨x, hx⟩ := ends_total m rd cr rest hn hcr
  exact ⟨x, hx, fun y hy => (hy.new (wr := {}) hn rfl hcr).symm.trans (hx.new (wr := {}) hn rfl hcr)⟩

/-- C107: in particular `new` succeeds exactly when the five messages, the ChangeCipherSpec and the right verify data come, in this order and with nothing else between them. -/
theorem C107_connected (m : Mode) (rd : Reader) (wr : Writer) (cr rest : Bytes) (hfa : wr.faults = []) (hcr : cr.length = 32) (hn : countBytes rd.stream + 1 < 2 ^ 64) :
    (TlsClient.new m rd wr ⟨cr ++ rest⟩).1 = .ok () ↔ ∃ f s s1 s2 rng' pub, FlightComes m rd rest f s rng' ∧ f.keyData = 65 :: pub ∧
      Comes { s with iv := some (f.keys cr).serverIv } (.ok .ChangeCipherSpecMessage) s1 ∧
      Comes (keyed m s1 (f.keys cr).serverKey) (.ok (.HandshakeMessage (.finished ⟨f.serverVerify cr pub⟩))) s2 := by
  rw [C107_outcome m rd wr cr rest _ hfa hcr hn]
  have hne : ∀ x : Res Message, (refused x : Res Unit) ≠ .ok () := by
    rintro ((_ | _ | _ | _) | _ | _ | _) h <;> cases h
  constructor
  · intro h
    generalize hx : (Res.ok () : Res Unit) = x at h
    cases h with
    | connected hF hp h1 h2 hv => exact ⟨_, _, _, _, _, _, hF, hp, h1, hv ▸ h2⟩
    | parameters => cases hx
    | noChange => cases hx
    | verify => cases hx
    | @keys _ _ _ _ _ _ y _ _ _ _ _ _ hy =>
      cases y with
      | ok k => exact absurd rfl (hy k)
      | err k => cases hx
      | panic => cases hx
      | diverge => cases hx
    | _ => exact absurd hx.symm (hne _)
  · rintro ⟨f, s, s1, s2, rng', pub, hF, hp, h1, h2⟩
    exact .connected hF hp h1 h2 rfl

/-! ### Cases -/

theorem cut_nil : MessageCut [] := Or.inl (by decide)

/-- The server closes at once. -/
example (m : Mode) (cr rest : Bytes) : Ends m ⟨[]⟩ cr rest (.err .IoFailure) :=
  .hello (x := .err .IoFailure) (s1 := TlsReader.new ⟨[]⟩) (.noRecord cut_nil (.stops [] [] ⟨by simp, by simp⟩ (Or.inl ⟨rfl, rfl⟩)) ⟨rfl, rfl, rfl, rfl, rfl⟩) (by simp)

/-- It sends `handshake_failure`. -/
example (m : Mode) (cr rest : Bytes) : Ends m ⟨[.data [21, 3, 3, 0, 2, 2, 40]]⟩ cr rest (.err .AlertReceived) :=
  .hello (x := .ok (.AlertMessage ⟨.fatal, .handshake_failure⟩)) (s1 := { TlsReader.new ⟨[]⟩ with readCount := 1 })
    (.message (r := ⟨.AlertTy, 3, 3, [2, 40]⟩) cut_nil (.cons (s1 := { TlsReader.new ⟨[]⟩ with readCount := 1 }) (ty := .AlertTy) (a := 3) (b := 3) (f := [2, 40]) (by decide) rfl rfl rfl rfl rfl
      (.nil rfl rfl rfl rfl)) rfl (.alert .fatal .handshake_failure rfl ⟨[], rfl⟩)) (by simp)

/-- It sends a ServerHelloDone first, in two records. -/
example (m : Mode) (cr rest : Bytes) : Ends m ⟨[.data (recordBytes 22 3 3 [14, 0] ++ recordBytes 22 3 3 [0, 0])]⟩ cr rest (.err .UnexpectedMessage) :=
  .hello (x := .ok (.HandshakeMessage (.server_hello_done {}))) (s1 := { TlsReader.new ⟨[]⟩ with readCount := 2 })
    (.more (s1 := { TlsReader.new ⟨[.data (recordBytes 22 3 3 [0, 0])]⟩ with readCount := 1, handshakeBuffer := ⟨[14, 0]⟩ }) (r := ⟨.HandshakeTy, 3, 3, [14, 0]⟩) cut_nil
      (.cons (s1 := { TlsReader.new ⟨[.data (recordBytes 22 3 3 [0, 0])]⟩ with readCount := 1 }) (ty := .HandshakeTy) (a := 3) (b := 3) (f := [14, 0]) (by decide) rfl rfl rfl rfl rfl
        (.nil rfl rfl rfl rfl)) rfl (by simp) rfl
      (.more (s1 := { TlsReader.new ⟨[]⟩ with readCount := 2, handshakeBuffer := ⟨[14, 0, 0, 0]⟩ }) (r := ⟨.HandshakeTy, 3, 3, [0, 0]⟩) (Or.inl (by decide))
        (.cons (s1 := { TlsReader.new ⟨[]⟩ with readCount := 2 }) (ty := .HandshakeTy) (a := 3) (b := 3) (f := [0, 0]) (by decide) rfl rfl rfl rfl rfl
          (.nil rfl rfl rfl rfl)) rfl (by simp) rfl
        (.whole (ty := 14) (body := []) (rest := []) rfl (by decide) ⟨by decide, rfl⟩ (Same.refl _)))) (by simp)

end Husk
