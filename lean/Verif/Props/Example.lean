import Verif.Props.ReadMethods
import Verif.Props.SessionData
/-! C96: the program in `examples/`. And C92, C95 for whole sessions: handshake, data, end. -/

namespace Husk

open Item Spec TlsReader TlsClient

/-! ### What a server sends after the handshake -/

/-- A record a server sends after the handshake: data, or close_notify. -/
inductive ServerItem where
  | data (f : Bytes)
  | close (level : AlertLevel)

namespace ServerItem

/-- Type and content of the record (RFC 5246, 6.2.1 and 7.2). -/
def record : ServerItem → UInt8 × Bytes
  | .data f => (23, f)
  | .close .warning => (21, [1, 0])
  | .close .fatal => (21, [2, 0])

/-- The data in it. -/
def content : ServerItem → Bytes
  | .data f => f
  | .close _ => []

/-- It fits in a record. -/
def Fits : ServerItem → Prop
  | .data f => f.length ≤ 2 ^ 14
  | .close _ => True

end ServerItem

/-- The records of a server after `k` protected ones, on the wire. -/
noncomputable def serverItems (S : Session) (k : Nat) (items : List ServerItem) : Bytes := protectedItems S.keys.serverKey S.keys.serverIv k (items.map ServerItem.record)

theorem serverItem_sent {m : Mode} {key iv : Bytes} (hk : key.length = 32) (hi : iv.length = 12) (i : ServerItem) (hi' : i.Fits) (w : TlsWriter)
    (he : w.encryptor = some (.chacha m key)) (hv : w.iv = some iv) (h0 : w.writer.faults = []) (hn : w.writeCount.toNat + 1 < 2 ^ 64) :
    ∃ w' rc, w.Sent [rc] w' ∧ w'.encryptor = some (.chacha m key) ∧ w'.iv = some iv ∧ w'.writer.faults = [] ∧ w'.writeCount.toNat = w.writeCount.toNat + 1 ∧
      rc.1.fragment.length ≤ RECORD_MAX_LEN ∧ Hands rc.1 i.content ∧ wireOf [rc] = protectedItems key iv w.writeCount.toNat [i.record] := by
  have hR : RECORD_MAX_LEN = 2 ^ 14 := rfl
  have hs : w.SealsShort := CrateWriter.sealsShort ⟨m, key, hk, he⟩
  obtain ⟨ty, f, hr, hf, hh⟩ : ∃ (ty : ContentType) (f : Bytes), i.record = (ty.toU8, f) ∧ f.length ≤ 2 ^ 14 ∧ Hands ⟨ty, 3, 3, f⟩ i.content := by
    have hal : ∀ l : AlertLevel, Hands ⟨.AlertTy, 3, 3, [levelNumber l, alertNumber .close_notify]⟩ [] := by
      intro l
      refine ⟨by simp, ?_⟩
      simp only [recordMessage]
      rw [alert_fragment ⟨l, .close_notify⟩]
      rfl
    match i, hi' with
    | .data f, h => exact ⟨.ApplicationDataTy, f, rfl, h, hands_app rfl⟩
    | .close .warning, _ => exact ⟨.AlertTy, [1, 0], rfl, by simp, hal .warning⟩
    | .close .fatal, _ => exact ⟨.AlertTy, [2, 0], rfl, by simp, hal .fatal⟩
  have hfs : ∀ g ∈ [f], g.length ≤ 2 ^ 14 := by simpa using hf
  obtain ⟨w', sent, h1, h2, h3, h4, h5, h6, h7⟩ := fragments_sent hfs ty w hs h0 (by simpa using hn)
  match sent, h2, h7 with
  | [rc], h2, _ =>
    have hrc : rc.1 = ⟨ty, 3, 3, f⟩ := by simpa [TlsWriter.recordsOf, TLS_VERSION] using h2
    refine ⟨w', rc, h1, h4.trans he, h5.trans hv, h3, by simpa using h6, by rw [hrc, hR]; exact hf, by rw [hrc]; exact hh, ?_⟩
    rw [sent_protected hk hi h1 he hv hfs h2 (by simpa using hn), hr]
    rfl

theorem serverItems_sent {m : Mode} {key iv : Bytes} (hk : key.length = 32) (hi : iv.length = 12) (items : List ServerItem) (hf : ∀ i ∈ items, i.Fits) (w : TlsWriter)
    (he : w.encryptor = some (.chacha m key)) (hv : w.iv = some iv) (h0 : w.writer.faults = []) (hn : w.writeCount.toNat + items.length < 2 ^ 64) :
    ∃ w' sent, w.Sent sent w' ∧ (∀ rc ∈ sent, rc.1.fragment.length ≤ RECORD_MAX_LEN) ∧ List.Forall₂ (fun rc b => Hands rc.1 b) sent (items.map ServerItem.content) ∧
      wireOf sent = protectedItems key iv w.writeCount.toNat (items.map ServerItem.record) := by
  induction items generalizing w with
  | nil => exact ⟨w, [], .nil, by simp, .nil, rfl⟩
  | cons i items ih =>
    rw [List.length_cons] at hn
    obtain ⟨w1, rc, a1, a2, a3, a4, a5, a6, a7, a8⟩ := serverItem_sent hk hi i (hf i (by simp)) w he hv h0 (by omega)
    obtain ⟨w', sent, b1, b2, b3, b4⟩ := ih (fun i h => hf i (List.mem_cons_of_mem _ h)) w1 a2 a3 a4 (by omega)
    refine ⟨w', [rc] ++ sent, a1.trans b1, ?_, .cons a7 b3, ?_⟩
    · intro rc' h
      rcases List.mem_append.mp h with h | h
      · obtain rfl := List.mem_singleton.mp h; exact a6
      · exact b2 rc' h
    · have e : wireOf ([rc] ++ sent) = wireOf [rc] ++ wireOf sent := by simp [wireOf]
      rw [e, a8, b4, a5]
      simp [protectedItems]

/-- A server that follows the protocol, then sends these records and perhaps part of another one, then the connection ends: the handshake succeeds and all sequences
of `read` calls hand out the data. -/
theorem session_serves (m : Mode) (rd : Reader) (wr : Writer) (rng : Rng) (hfa : wr.faults = []) (random block rest : Bytes) (D : Draws rng.bytes random block rest)
    (V : ServerValues) (hV : V.Conforms) (S : Session) (hS : S = V.session random (clientPoint block)) (fs1 fs2 : List Bytes)
    (items : List ServerItem) (hi : ∀ i ∈ items, i.Fits) (hn : items.length < 2 ^ 63) (p : Bytes) (hp : PartOfRecord p) (t : List Sym) (ht : Dead t)
    (hrd : Reply S fs1 fs2 (ofBytes (serverItems S fs2.length items ++ p) ++ t) rd) :
    ∃ c w, TlsClient.new m rd wr rng = (.ok (), c) ∧ Ran m rd wr rng rest S S.serverVerify fs1 fs2 (ofBytes (serverItems S fs2.length items ++ p) ++ t) c w ∧
      Serves m c (items.flatMap ServerItem.content) := by
  obtain ⟨c, w, h, hr⟩ := reply_run m rd wr rng hfa random block rest D V hV S hS (serverVerify_length D hV hS) fs1 fs2 _ hrd
  obtain ⟨k1, k2, k3, k4, _⟩ := hr.lengths
  obtain ⟨p1, p2, p3, p4⟩ := hr.peer
  have hlt := hrd.finished.2.1
  have hc : w.writeCount.toNat = fs2.length := by
    rw [p3, UInt64.toNat_ofNat']
    omega
  obtain ⟨w', sent, h1, h2, h3, h4⟩ := serverItems_sent k2 k4 items hi w p1 p2 p4 (by omega)
  have hl : sent.length = items.length := by have := forall₂_length h3; simpa using this
  have hp' : Pending w sent (items.map ServerItem.content) w' (ofBytes p ++ t) c.reader := by
    refine ⟨h1, hr.synced, by rw [hr.decryptor]; rfl, by rw [hr.buffer]; exact NoMessage.empty, h2, by omega, h3, ?_⟩
    rw [hr.stream, h4, hc, serverItems, ofBytes_append, List.append_assoc]
  refine ⟨c, w, h, hr, fun lens => ?_⟩
  rw [Pending.readMany_dead m lens hp' hp ht, hr.buf]
  rfl

/-! ### C96: whole sessions -/

/-- What the calls return when `data` is what the server sends before the connection ends: reads hand it out in turn and then nothing, the other calls succeed. -/
def Spec.returns : Bytes → List Call → List CallResult
  | _, [] => []
  | data, .read len :: calls => .read (.ok (data.take len)) :: returns (data.drop len) calls
  | data, .write buf :: calls => .write (.ok buf.length) :: returns data calls
  | data, .flush :: calls => .done (.ok ()) :: returns data calls
  | data, .close :: calls => .done (.ok ()) :: returns data calls

theorem Serves.writer {m : Mode} {c : TlsClient} {data : Bytes} (h : Serves m c data) (w : TlsWriter) : Serves m { c with writer := w } data := by
  intro lens
  induction lens generalizing c data with
  | nil => rfl
  | cons len lens ih =>
    obtain ⟨c', h1, h2⟩ := h.read len
    obtain ⟨f, hf⟩ := read_only m len
    have e1 := (hf c).symm.trans h1
    have e2 := hf { c with writer := w }
    simp only [Prod.mk.injEq] at e1
    have e3 : (TlsClient.read m len).run { c with writer := w } = (.ok (data.take len), { c' with writer := w }) := by
      rw [e2, ← e1.2]
      simp only [e1.1]
    simp only [readMany, e3, handOut, List.map_cons, ih h2]

theorem runCalls_serves {m : Mode} {key iv : Bytes} (hk : key.length = 32) (hi : iv.length = 12) (calls : List Call) {k : Nat} {c : TlsClient} {data : Bytes}
    (hw : Writes m key iv k c.writer) (hn : k + (calls.flatMap Call.records).length < 2 ^ 64) (h : Serves m c data) : (runCalls m calls c).1 = returns data calls := by
  induction calls generalizing k c data with
  | nil => rfl
  | cons call calls ih =>
    simp only [List.flatMap_cons, List.length_append] at hn
    obtain ⟨h1, -, h3⟩ := Call.run_sends hk hi hw call (by omega)
    have same : call.isRead = false → Serves m (call.run m c).2 data := by
      intro hr
      have e := (C67_independent m [call] c).2.2
      simp only [runCalls, List.filter_cons, List.filter_nil, hr] at e
      rw [e]
      exact h.writer _
    show (call.run m c).1 :: (runCalls m calls (call.run m c).2).1 = _
    cases call with
    | read len =>
      obtain ⟨c', g1, g2⟩ := h.read len
      have e : Call.run m c (.read len) = (.read (.ok (data.take len)), c') := by simp only [Call.run, g1]
      rw [e] at h1 ⊢
      rw [ih h1 (by omega) g2, returns]
    | write buf => rw [h3 _ rfl, ih h1 (by omega) (same rfl), returns]
    | flush => rw [h3 _ rfl, ih h1 (by omega) (same rfl), returns]
    | close => rw [h3 _ rfl, ih h1 (by omega) (same rfl), returns]

/-- C96: a session from beginning to end. For every server that follows the protocol, every way it cuts its flight and its data into records, every draw of the client,
every transport (it may cut the bytes anywhere; no write errors) and every history of calls: the handshake succeeds, every call returns what the specification says,
and the bytes on the wire are the client's flight followed by the protected records of the calls. The server may send close_notify, part of a last record, and the
connection may end or fail. -/
theorem C96_session (m : Mode) (rd : Reader) (wr : Writer) (rng : Rng) (hfa : wr.faults = []) (random block rest : Bytes) (D : Draws rng.bytes random block rest)
    (V : ServerValues) (hV : V.Conforms) (S : Session) (hS : S = V.session random (clientPoint block)) (fs1 fs2 : List Bytes)
    (items : List ServerItem) (hi : ∀ i ∈ items, i.Fits) (hn : items.length < 2 ^ 63) (p : Bytes) (hp : PartOfRecord p) (t : List Sym) (ht : Dead t)
    (hrd : Reply S fs1 fs2 (ofBytes (serverItems S fs2.length items ++ p) ++ t) rd) (calls : List Call) (hc : (calls.flatMap Call.records).length < 2 ^ 64 - 1) :
    ∃ c, TlsClient.new m rd wr rng = (.ok (), c) ∧ (runCalls m calls c).1 = returns (items.flatMap ServerItem.content) calls ∧
      (runCalls m calls c).2.writer.writer.wire = wr.wire ++ (clientFlight S.random S.point S.keys S.clientVerify).flatten ++
        protectedItems S.keys.clientKey S.keys.clientIv 1 (calls.flatMap Call.records) := by
  obtain ⟨c, w, h, hr, hs⟩ := session_serves m rd wr rng hfa random block rest D V hV S hS fs1 fs2 items hi hn p hp t ht hrd
  obtain ⟨k1, k2, k3, k4, _⟩ := hr.lengths
  have hw : Writes m S.keys.clientKey S.keys.clientIv 1 c.writer := ⟨hr.encryptor, hr.writerIv, by rw [hr.writeCount]; rfl, hr.faults⟩
  obtain ⟨-, h2, -⟩ := runCalls_sends k1 k3 calls hw (by omega)
  exact ⟨c, h, runCalls_serves k1 k3 calls hw (by omega) hs, by rw [h2, hr.wire]⟩

/-- C95 in whole sessions: the handshake with a server that follows the protocol succeeds, and `read_to_end`, whatever room std makes for each `read`, ends with
exactly the data of the server's records in the vector. -/
theorem C95_session_partial (m : Mode) (rd : Reader) (wr : Writer) (rng : Rng) (hfa : wr.faults = []) (random block rest : Bytes) (D : Draws rng.bytes random block rest)
    (V : ServerValues) (hV : V.Conforms) (S : Session) (hS : S = V.session random (clientPoint block)) (fs1 fs2 : List Bytes)
    (items : List ServerItem) (hi : ∀ i ∈ items, i.Fits) (hn : items.length < 2 ^ 63) (p : Bytes) (hp : PartOfRecord p) (t : List Sym) (ht : Dead t)
    (hrd : Reply S fs1 fs2 (ofBytes (serverItems S fs2.length items ++ p) ++ t) rd) :
    ∃ c, TlsClient.new m rd wr rng = (.ok (), c) ∧ ∀ next : Bytes → Nat, ∃ c', ReadsToEnd m next [] c (items.flatMap ServerItem.content) c' := by
  obtain ⟨c, w, h, -, hs⟩ := session_serves m rd wr rng hfa random block rest D V hV S hS fs1 fs2 items hi hn p hp t ht hrd
  refine ⟨c, h, fun next => ?_⟩
  obtain ⟨c', g, -⟩ := readsToEnd_holds m next [] hs
  exact ⟨c', g⟩

/-! ### C92: cuts of a session -/

theorem items_cut {key iv : Bytes} (items : List ServerItem) (hf : ∀ i ∈ items, i.Fits) (n k : Nat) :
    ∃ j p, (protectedItems key iv n (items.map ServerItem.record)).take k = protectedItems key iv n ((items.take j).map ServerItem.record) ++ p ∧ PartOfRecord p := by
  induction items generalizing n k with
  | nil => exact ⟨0, [], by simp [protectedItems], partOfRecord_nil⟩
  | cons i items ih =>
    have hE : ENC_RECORD_MAX_LEN = 18432 := rfl
    obtain ⟨ty, hty, hlen⟩ : ∃ ty : ContentType, i.record.1 = ty.toU8 ∧ i.record.2.length ≤ 2 ^ 14 := by
      match i, hf i (by simp) with
      | .data f, h => exact ⟨.ApplicationDataTy, rfl, h⟩
      | .close .warning, _ => exact ⟨.AlertTy, rfl, by simp [ServerItem.record]⟩
      | .close .fatal, _ => exact ⟨.AlertTy, rfl, by simp [ServerItem.record]⟩
    obtain ⟨ct, hct, hcl⟩ : ∃ ct, protectedRecord key iv n i.record.1 i.record.2 = recordBytes ty.toU8 3 3 ct ∧ ct.length ≤ ENC_RECORD_MAX_LEN := by
      refine ⟨_, by rw [hty]; rfl, ?_⟩
      simp only [Spec.Aead.sealMsg, Spec.Aead.tag, List.length_append, Spec.ChaCha20.encrypt, List.length_mapIdx, Spec.Poly1305.mac_length]
      omega
    rw [List.map_cons]
    simp only [protectedItems]
    rw [hct]
    by_cases hk : k < (recordBytes ty.toU8 3 3 ct).length
    · refine ⟨0, (recordBytes ty.toU8 3 3 ct).take k, ?_, ty, 3, 3, ct, (recordBytes ty.toU8 3 3 ct).drop k, hcl, List.take_append_drop _ _, ?_⟩
      · rw [List.take_append_of_le_length (by omega)]; rfl
      · intro hd
        have := congrArg List.length hd
        rw [List.length_drop, List.length_nil] at this
        omega
    · obtain ⟨j, p, h1, h2⟩ := ih (fun i h => hf i (List.mem_cons_of_mem _ h)) (n + 1) (k - (recordBytes ty.toU8 3 3 ct).length)
      refine ⟨j + 1, p, ?_, h2⟩
      rw [List.take_append, List.take_of_length_le (by omega), h1, List.take_succ_cons, List.map_cons]
      simp only [protectedItems]
      rw [hct, List.append_assoc]

/-- C92 is false of whole sessions: somebody on the network lets the handshake and any number of bytes of what the server sends afterwards through and then ends or
resets the connection. There is a `j` such that every history of calls returns and sends what it returns and sends when the server sends only its first `j` records,
close_notify and ends the connection. -/
theorem C92_session_cut (m : Mode) (wr : Writer) (rng : Rng) (hfa : wr.faults = []) (random block rest : Bytes) (D : Draws rng.bytes random block rest)
    (V : ServerValues) (hV : V.Conforms) (S : Session) (hS : S = V.session random (clientPoint block)) (fs1 fs2 : List Bytes)
    (items : List ServerItem) (hi : ∀ i ∈ items, i.Fits) (hn : items.length + 1 < 2 ^ 63) (k : Nat) :
    ∃ j, ∀ (t : List Sym), Dead t → ∀ rd rd' : Reader, Reply S fs1 fs2 (ofBytes ((serverItems S fs2.length items).take k) ++ t) rd →
      Reply S fs1 fs2 (ofBytes (serverItems S fs2.length (items.take j ++ [.close .warning]))) rd' →
      ∀ calls : List Call, (calls.flatMap Call.records).length < 2 ^ 64 - 1 →
        ∃ c c', TlsClient.new m rd wr rng = (.ok (), c) ∧ TlsClient.new m rd' wr rng = (.ok (), c') ∧ (runCalls m calls c).1 = (runCalls m calls c').1 ∧
          (runCalls m calls c).2.writer.writer.wire = (runCalls m calls c').2.writer.writer.wire := by
  obtain ⟨j, p, e, hp⟩ := items_cut (key := S.keys.serverKey) (iv := S.keys.serverIv) items hi fs2.length k
  refine ⟨j, fun t ht rd rd' h h' calls hc => ?_⟩
  have h1 : Reply S fs1 fs2 (ofBytes (serverItems S fs2.length (items.take j) ++ p) ++ t) rd := by
    have : (serverItems S fs2.length items).take k = serverItems S fs2.length (items.take j) ++ p := e
    rw [← this]; exact h
  have h2 : Reply S fs1 fs2 (ofBytes (serverItems S fs2.length (items.take j ++ [.close .warning]) ++ []) ++ []) rd' := by
    rw [List.append_nil, List.append_nil]; exact h'
  obtain ⟨c, a1, a2, a3⟩ := C96_session m rd wr rng hfa random block rest D V hV S hS fs1 fs2 (items.take j) (fun i h => hi i (List.mem_of_mem_take h))
    (by rw [List.length_take]; omega) p hp t ht h1 calls hc
  obtain ⟨c', b1, b2, b3⟩ := C96_session m rd' wr rng hfa random block rest D V hV S hS fs1 fs2 (items.take j ++ [.close .warning])
    (fun i h => by
      rcases List.mem_append.mp h with h | h
      · exact hi i (List.mem_of_mem_take h)
      · obtain rfl := List.mem_singleton.mp h; trivial)
    (by rw [List.length_append, List.length_take, List.length_singleton]; omega) [] partOfRecord_nil [] (.inl rfl) h2 calls hc
  refine ⟨c, c', a1, b1, ?_, by rw [a3, b3]⟩
  rw [a2, b2]
  simp [List.flatMap_append, ServerItem.content]

/-! ### C97: the example program -/

/-- The request of examples/cloudflare.rs:10: `HEAD / HTTP/1.1`, `Host: www.cloudflare.com`, `Connection: close`. -/
def Example.request : Bytes :=
  [72, 69, 65, 68, 32, 47, 32, 72, 84, 84, 80, 47, 49, 46, 49, 13, 10, 72, 111, 115, 116, 58, 32, 119, 119, 119, 46, 99, 108, 111, 117, 100, 102, 108, 97, 114, 101, 46, 99, 111, 109,
    13, 10, 67, 111, 110, 110, 101, 99, 116, 105, 111, 110, 58, 32, 99, 108, 111, 115, 101, 13, 10, 13, 10]

/-- `main` of examples/cloudflare.rs:6-20, given the connected stream as `rd` and `wr`. The result is what it prints after `msg:` (as bytes, before
`from_utf8_lossy`; `none` if it panics before), whether it returns or panics, and the client at the end. The buffer keeps zeros where `read` did not write. -/
def Example.main (m : Mode) (rd : Reader) (wr : Writer) (rng : Rng) : Option Bytes × Res Unit × TlsClient :=
  match TlsClient.new m rd wr rng with
  | (.ok (), c) =>
    match (TlsClient.write m Example.request).run c with
    | (.ok _, c) =>
      match (TlsClient.read m 4096).run c with
      | (.ok out, c) =>
        let msg := out ++ List.replicate (4096 - out.length) 0
        match (TlsClient.close m).run c with
        | (.ok (), c) => (some msg, .ok (), c)
        | (.diverge, c) => (some msg, .diverge, c)
        | (_, c) => (some msg, .panic, c)
      | (.diverge, c) => (none, .diverge, c)
      | (_, c) => (none, .panic, c)
    | (.diverge, c) => (none, .diverge, c)
    | (_, c) => (none, .panic, c)
  | (.diverge, c) => (none, .diverge, c)
  | (_, c) => (none, .panic, c)

/-- `main` is a history of calls. -/
theorem Example.main_calls (m : Mode) (rd : Reader) (wr : Writer) (rng : Rng) (c : TlsClient) (h : TlsClient.new m rd wr rng = (.ok (), c)) (n : Nat) (out : Bytes)
    (hr : (runCalls m [.write Example.request, .read 4096, .close] c).1 = [.write (.ok n), .read (.ok out), .done (.ok ())]) :
    Example.main m rd wr rng = (some (out ++ List.replicate (4096 - out.length) 0), .ok (), (runCalls m [.write Example.request, .read 4096, .close] c).2) := by
  simp only [runCalls, Call.run, List.cons.injEq, CallResult.write.injEq, CallResult.read.injEq, CallResult.done.injEq, and_true] at hr ⊢
  obtain ⟨h1, h2, h3⟩ := hr
  obtain ⟨x1, c1, e1⟩ : ∃ x c', (TlsClient.write m Example.request).run c = (x, c') := ⟨_, _, rfl⟩
  rw [e1] at h1 h2 h3 ⊢
  obtain rfl := h1
  obtain ⟨x2, c2, e2⟩ : ∃ x c', (TlsClient.read m 4096).run c1 = (x, c') := ⟨_, _, rfl⟩
  rw [e2] at h2 h3 ⊢
  obtain rfl := h2
  obtain ⟨x3, c3, e3⟩ : ∃ x c', (TlsClient.close m).run c2 = (x, c') := ⟨_, _, rfl⟩
  rw [e3] at h3 ⊢
  obtain rfl := h3
  simp only [Example.main, h, e1, e2, e3]

/-- C97: against every server that follows the protocol and answers with any data, in any records, and ends the connection, the example returns; it has sent the
client's flight, the request and close_notify, and prints the first 4096 bytes of the answer, filled up with zeros. -/
theorem C97_example (m : Mode) (rd : Reader) (wr : Writer) (rng : Rng) (hfa : wr.faults = []) (random block rest : Bytes) (D : Draws rng.bytes random block rest)
    (V : ServerValues) (hV : V.Conforms) (S : Session) (hS : S = V.session random (clientPoint block)) (fs1 fs2 : List Bytes)
    (items : List ServerItem) (hi : ∀ i ∈ items, i.Fits) (hn : items.length < 2 ^ 63) (p : Bytes) (hp : PartOfRecord p) (t : List Sym) (ht : Dead t)
    (hrd : Reply S fs1 fs2 (ofBytes (serverItems S fs2.length items ++ p) ++ t) rd) :
    ∃ c, Example.main m rd wr rng = (some ((items.flatMap ServerItem.content).take 4096 ++ List.replicate (4096 - (items.flatMap ServerItem.content).length) 0), .ok (), c) ∧
      c.writer.writer.wire = wr.wire ++ (clientFlight S.random S.point S.keys S.clientVerify).flatten ++
        (protectedRecord S.keys.clientKey S.keys.clientIv 1 23 Example.request ++ protectedRecord S.keys.clientKey S.keys.clientIv 2 21 [2, 0]) := by
  have hrec : [Call.write Example.request, .read 4096, .close].flatMap Call.records = [(23, Example.request), (21, [2, 0])] := by
    have : chunks 16384 Example.request = [Example.request] := chunks_small (by simp [Example.request]) (by decide)
    simp [Call.records, this]
  obtain ⟨c, h1, h2, h3⟩ := C96_session m rd wr rng hfa random block rest D V hV S hS fs1 fs2 items hi hn p hp t ht hrd [.write Example.request, .read 4096, .close]
    (by rw [hrec]; simp)
  refine ⟨(runCalls m [.write Example.request, .read 4096, .close] c).2, ?_, ?_⟩
  · rw [Example.main_calls m rd wr rng c h1 _ _ h2]
    have e : 4096 - ((items.flatMap ServerItem.content).take 4096).length = 4096 - (items.flatMap ServerItem.content).length := by
      rw [List.length_take]; omega
    rw [e]
  · rw [h3, hrec]
    simp [protectedItems]

/-- The hypotheses are met: for every draw and all values of the server, an answer in two records and close_notify, delivered at once. -/
example (random block : Bytes) (hr : random.length = 32) (hb : block.length = 32) (hlt : leNat block < P256.p) (V : ServerValues) (hV : V.Conforms) (S : Session)
    (hS : S = V.session random (clientPoint block)) : Draws (random ++ block) random block [] ∧
    (∀ i ∈ [ServerItem.data [72, 84], .data [84, 80], .close .warning], i.Fits) ∧ ∃ fs1 fs2 rd,
      Reply S fs1 fs2 (ofBytes (serverItems S fs2.length [.data [72, 84], .data [84, 80], .close .warning] ++ []) ++ []) rd := by
  have D : Draws (random ++ block) random block [] := ⟨⟨[], by simp, by simp⟩, hr, hb, hlt⟩
  refine ⟨D, by simp [ServerItem.Fits], _, _, ⟨[.data (serverWire S (chunks 16384 S.flight) (chunks 16384 (finishedBytes S.serverVerify)) ++
      (serverItems S (chunks 16384 (finishedBytes S.serverVerify)).length [.data [72, 84], .data [84, 80], .close .warning] ++ []))]⟩,
    cuts_exists _ (by have := flight_length hV hS; omega), cuts_exists _ (by simp [finishedBytes, handshakeBytes, serverVerify_length D hV hS]), ?_⟩
  simp only [List.append_nil, ← ofBytes_append]
  exact List.append_nil _

/-- What the calls return when the server has sent `HTTP` and closed. -/
example : returns [72, 84, 84, 80] [.write [1], .read 3, .read 3, .close, .read 3] = [.write (.ok 1), .read (.ok [72, 84, 84]), .read (.ok [80]), .done (.ok ()), .read (.ok [])] := rfl

end Husk
