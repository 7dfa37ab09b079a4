import Verif.Proofs.ServerMessages
/-! C26, C31, C32: what `TlsClient::new` sends, in every outcome (src/client.rs). -/

namespace Husk

open Item Spec TlsReader TlsClient

/-- The client at the start of `TlsClient::new`. -/
def fresh (rd : Reader) (wr : Writer) (rng : Rng) : TlsClient := { reader := TlsReader.new rd, writer := TlsWriter.new wr, rng }

theorem fresh_fresh (rd : Reader) (wr : Writer) (rng : Rng) : Fresh (fresh rd wr rng) := ⟨rfl, rfl, rfl, rfl, rfl⟩

theorem new_run (m : Mode) (rd : Reader) (wr : Writer) (rng : Rng) : TlsClient.new m rd wr rng =
    match (handshake m).run (fresh rd wr rng) with
    | (.err k, c) => (sendTlsAlert m k >>= fun k' => (St.err k' : St TlsClient Unit)).run c
    | (r, c) => (r, c) := by
  unfold TlsClient.new fresh
  dsimp only
  split
  · rename_i h; rw [h]
  · rename_i r c hr h
    rw [h]
    cases r with
    | err k => exact absurd rfl (hr k)
    | ok => rfl
    | panic => rfl
    | diverge => rfl

/-! ### Specification -/

/-- RFC 5246, 7.2: the alert description for each kind of error. An alert from the peer is answered with close_notify. -/
def alertCode : TlsErrorKind → UInt8
  | .UnexpectedMessage => 10
  | .BadRecordMac => 20
  | .RecordOverflow => 22
  | .IllegalParameter => 47
  | .DecodeError => 50
  | .DecryptError => 51
  | .InternalError => 80
  | .IoFailure => 80
  | .AlertReceived => 0

/-- How far the client came, with how it protects the next record: only the ClientHello, in clear; or all four records, and the next one is protected with
the client's keys, sequence number 1. -/
inductive Stage (random : Bytes) : (sent : Bytes) → (next : UInt8 → Bytes → Bytes) → Prop
  | hello : Stage random (recordBytes 22 3 3 (clientHelloBytes random)) (fun ty f => recordBytes ty 3 3 f)
  | finished (point : Bytes) (K : Keys) (vd : Bytes) : point.length = 65 → K.clientKey.length = 32 → K.clientIv.length = 12 → vd.length = 12 →
      Stage random (clientFlight random point K vd).flatten (protectedRecord K.clientKey K.clientIv 1)

/-! ### The alert -/

theorem alert_code (k : TlsErrorKind) : [levelNumber (Alert.fromTlsErr k).level, alertNumber (Alert.fromTlsErr k).description] = [2, alertCode k] := by
  cases k <;> rfl

theorem sendAlert_io (m : Mode) (c : TlsClient) : (sendTlsAlert m .IoFailure >>= fun k' => (St.err k' : St TlsClient Unit)).run c = (.err .IoFailure, c) := rfl

/-- Sending the alert. -/
theorem sendAlert_cases (m : Mode) (k : TlsErrorKind) (hk : k ≠ .IoFailure) (c : TlsClient) (hs : c.writer.SealsShort) (hn : c.writer.writeCount.toNat ≤ 3) :
    ∃ ct, c.writer.sealed ⟨.AlertTy, 3, 3, [2, alertCode k]⟩ = .ok ct ∧ ∃ w',
      ((sendTlsAlert m k >>= fun k' => (St.err k' : St TlsClient Unit)).run c = (.err k, { c with writer := w' }) ∧ w'.writer.wire = c.writer.writer.wire ++ recordBytes 21 3 3 ct) ∨
      ((sendTlsAlert m k >>= fun k' => (St.err k' : St TlsClient Unit)).run c = (.err .IoFailure, { c with writer := w' }) ∧ c.writer.writer.faults ≠ [] ∧
        ∃ n, w'.writer.wire = c.writer.writer.wire ++ (recordBytes 21 3 3 ct).take n) := by
  have hrun : ∀ x w', (TlsWriter.writeData m .AlertTy [2, alertCode k]).run c.writer = (x, w') →
      (onWriter (TlsWriter.writeAlert m (Alert.fromTlsErr k))).run c = (x, { c with writer := w' }) := by
    intro x w' h
    rw [← alert_code, ← writeAlert_run] at h
    exact onWriter_ok h
  have hsend : sendTlsAlert m k = ⟨fun c => match (onWriter (TlsWriter.writeAlert m (Alert.fromTlsErr k))).run c with
    | (.ok (), c) => (.ok k, c)
    | (.err k', c) => (.ok k', c)
    | (.panic, c) => (.panic, c)
    | (.diverge, c) => (.diverge, c)⟩ := by
    cases k <;> first | rfl | exact absurd rfl hk
  rcases write_one m .AlertTy [2, alertCode k] c.writer hs (by simp) (show 2 ≤ RECORD_MAX_LEN by decide) (by omega) with ⟨ct, w', h1, h2⟩ | ⟨ct, w', n, h1, h2, h3, h4, _⟩
  · refine ⟨ct, h2.seal_ok, w', Or.inl ⟨?_, h2.wire⟩⟩
    rw [St.bind_run, hsend]
    simp only [hrun _ _ h1]
    rfl
  · refine ⟨ct, h2, w', Or.inr ⟨?_, h4, n, h3⟩⟩
    rw [St.bind_run, hsend]
    simp only [hrun _ _ h1]
    rfl

/-! ### All outcomes -/

theorem stage_sent {cr : Bytes} (hcr : cr.length = 32) {f : ServerFlight} {pub : Bytes} (hf : FlightFit f pub) :
    Stage cr (clientFlight cr pub (f.keys cr) (f.clientVerify cr pub)).flatten (protectedRecord (f.keys cr).clientKey (f.keys cr).clientIv 1) := by
  obtain ⟨k1, _, k3, _⟩ := hf.keys_length hcr
  exact .finished pub (f.keys cr) _ hf.point k1 k3 (hf.clientVerify hcr .debug).2

/-- The handshake as the transport sees it. -/
theorem handshake_stage (m : Mode) (rd : Reader) (wr : Writer) (rng : Rng) (x : Res Unit) (c : TlsClient) (h : (handshake m).run (fresh rd wr rng) = (x, c)) :
    (x = .diverge ∧ rng.bytes.length < 32 ∧ c.writer.writer.wire = wr.wire) ∨
    ∃ random rest sent next, rng.bytes = random ++ rest ∧ random.length = 32 ∧ Stage random sent next ∧
      ((x = .err .IoFailure ∧ wr.faults ≠ [] ∧ ∃ n, c.writer.writer.wire = wr.wire ++ sent.take n) ∨
       (c.writer.writer.wire = wr.wire ++ sent ∧ (wr.faults = [] → c.writer.writer.faults = []) ∧ c.writer.SealsShort ∧ c.writer.writeCount.toNat ≤ 3 ∧
        (∀ ty f ct, f.length ≤ RECORD_MAX_LEN → c.writer.sealed ⟨ty, 3, 3, f⟩ = .ok ct → recordBytes ty.toU8 3 3 ct = next ty.toU8 f))) := by
  have ho := handshake_outcome m (fresh rd wr rng) (fresh_fresh rd wr rng)
  rw [h] at ho
  dsimp only at ho
  cases ho with
  | noRandom h1 h2 => exact Or.inl ⟨rfl, h1, by rw [h2]; rfl⟩
  | helloLost cr rest n h1 h2 h3 h4 => exact Or.inr ⟨cr, rest, _, _, h1, h2, .hello, Or.inl ⟨rfl, h3, n, h4⟩⟩
  | flightFailed cr rest h1 h2 h3 h4 h5 h6 h7 =>
    refine Or.inr ⟨cr, rest, _, _, h1, h2, .hello, Or.inr ⟨h4, h7, sealsShort_plain h5, h6, ?_⟩⟩
    intro ty f ct _ hs
    rw [sealed_plain h5] at hs
    cases hs
    rfl
  | secondLost cr rest f pub n h1 h2 h3 h4 h5 => exact Or.inr ⟨cr, rest, _, _, h1, h2, stage_sent h2 h3, Or.inl ⟨rfl, h4, n, h5⟩⟩
  | sent cr rest f pub s1 s2 s3 s4 rng c4 h1 h2 h3 h4 h5 h6 h7 h8 h9 h10 h11 h12 h13 =>
    obtain ⟨k1, _, k3, _⟩ := h4.keys_length h2
    refine Or.inr ⟨cr, rest, _, _, h1, h2, stage_sent h2 h4, Or.inr ⟨h9, h13, CrateWriter.sealsShort ⟨m, _, k1, h10⟩, by rw [h12]; decide, ?_⟩⟩
    intro ty f' ct hl hs
    rw [sealed_chacha h10 k1 h11 k3 ty f' hl, h12] at hs
    cases hs
    rfl

/-- C32: `new` returned an error. Either it is not an I/O error, and exactly one record follows what was sent before, a fatal alert with the code of that error;
or it is an I/O error and nothing follows; or the transport failed while something was sent (a part of the flight, or of the alert). -/
theorem C32_alert (m : Mode) (rd : Reader) (wr : Writer) (rng : Rng) (k : TlsErrorKind) (c : TlsClient) (h : TlsClient.new m rd wr rng = (.err k, c)) :
    ∃ random rest sent next, rng.bytes = random ++ rest ∧ random.length = 32 ∧ Stage random sent next ∧
      ((k ≠ .IoFailure ∧ c.writer.writer.wire = wr.wire ++ sent ++ next 21 [2, alertCode k]) ∨
       (k = .IoFailure ∧ c.writer.writer.wire = wr.wire ++ sent) ∨
       (k = .IoFailure ∧ wr.faults ≠ [] ∧ ∃ k0 n, k0 ≠ .IoFailure ∧ c.writer.writer.wire = wr.wire ++ (sent ++ next 21 [2, alertCode k0]).take n)) := by
  rw [new_run] at h
  rcases hr : (handshake m).run (fresh rd wr rng) with ⟨x, c0⟩
  rw [hr] at h
  have hx : ∃ k0, x = .err k0 := by
    cases x with
    | err k0 => exact ⟨k0, rfl⟩
    | _ => cases h
  obtain ⟨k0, rfl⟩ := hx
  dsimp only at h
  rcases handshake_stage m rd wr rng _ c0 hr with ⟨h1, _⟩ | ⟨random, rest, sent, next, h1, h2, h3, ⟨h4, h5, n, h6⟩ | ⟨h4, h5, h6, h7, h8⟩⟩
  · cases h1
  · cases h4
    rw [sendAlert_io] at h
    cases h
    obtain ⟨n', hn'⟩ := TlsWriter.take_append_prefix [] sent n (next 21 [2, alertCode .AlertReceived])
    refine ⟨random, rest, sent, next, h1, h2, h3, Or.inr (Or.inr ⟨rfl, h5, .AlertReceived, n', by decide, ?_⟩)⟩
    have hn' : (sent ++ next 21 [2, alertCode .AlertReceived]).take n' = sent.take n := by simpa using hn'.symm
    rw [h6, hn']
  · by_cases hk : k0 = .IoFailure
    · subst hk
      rw [sendAlert_io] at h
      cases h
      exact ⟨random, rest, sent, next, h1, h2, h3, Or.inr (Or.inl ⟨rfl, h4⟩)⟩
    · obtain ⟨ct, g1, w', ⟨g2, g3⟩ | ⟨g2, g3, n, g4⟩⟩ := sendAlert_cases m k0 hk c0 h6 h7
      · rw [g2] at h
        cases h
        refine ⟨random, rest, sent, next, h1, h2, h3, Or.inl ⟨hk, ?_⟩⟩
        show w'.writer.wire = _
        have hrec : recordBytes 21 3 3 ct = next 21 [2, alertCode k] := h8 .AlertTy _ ct (by show 2 ≤ RECORD_MAX_LEN; decide) g1
        rw [g3, h4, hrec]
      · rw [g2] at h
        cases h
        obtain ⟨n', hn'⟩ := TlsWriter.take_append_prefix sent (next 21 [2, alertCode k0]) n []
        refine ⟨random, rest, sent, next, h1, h2, h3, Or.inr (Or.inr ⟨rfl, fun h => g3 (h5 h), k0, n', hk, ?_⟩)⟩
        show w'.writer.wire = _
        have hrec : recordBytes 21 3 3 ct = next 21 [2, alertCode k0] := h8 .AlertTy _ ct (by show 2 ≤ RECORD_MAX_LEN; decide) g1
        rw [List.append_nil] at hn'
        rw [g4, h4, hrec, List.append_assoc, hn']

/-- C32: which error is returned. If the handshake itself failed with `k`, then `new` returns `k`, or an I/O error if the transport failed during the alert;
with an I/O error the state is left as it was. -/
theorem C32_error (m : Mode) (rd : Reader) (wr : Writer) (rng : Rng) (k : TlsErrorKind) (c0 : TlsClient) (h : (handshake m).run (fresh rd wr rng) = (.err k, c0)) :
    (k = .IoFailure → TlsClient.new m rd wr rng = (.err .IoFailure, c0)) ∧
    (k ≠ .IoFailure → wr.faults = [] → (TlsClient.new m rd wr rng).1 = .err k) ∧
    (k ≠ .IoFailure → (TlsClient.new m rd wr rng).1 = .err k ∨ (TlsClient.new m rd wr rng).1 = .err .IoFailure) := by
  rw [new_run, h]
  dsimp only
  refine ⟨by rintro rfl; rfl, ?_, ?_⟩
  · intro hk hf
    rcases handshake_stage m rd wr rng _ c0 h with ⟨h1, _⟩ | ⟨random, rest, sent, next, h1, h2, h3, ⟨h4, h5, n, h6⟩ | ⟨h4, h5, h6, h7, h8⟩⟩
    · cases h1
    · exact absurd hf h5
    · obtain ⟨ct, g1, w', ⟨g2, g3⟩ | ⟨g2, g3, n, g4⟩⟩ := sendAlert_cases m k hk c0 h6 h7
      · rw [g2]
      · exact absurd (h5 hf) g3
  · intro hk
    rcases handshake_stage m rd wr rng _ c0 h with ⟨h1, _⟩ | ⟨random, rest, sent, next, h1, h2, h3, ⟨h4, h5, n, h6⟩ | ⟨h4, h5, h6, h7, h8⟩⟩
    · cases h1
    · cases h4; exact absurd rfl hk
    · obtain ⟨ct, g1, w', ⟨g2, g3⟩ | ⟨g2, g3, n, g4⟩⟩ := sendAlert_cases m k hk c0 h6 h7
      · rw [g2]; exact Or.inl rfl
      · rw [g2]; exact Or.inr rfl

/-- Every outcome of `new` that is not an error is the outcome of the handshake. -/
theorem new_of_handshake (m : Mode) (rd : Reader) (wr : Writer) (rng : Rng) (x : Res Unit) (c : TlsClient) (hx : ∀ k, x ≠ .err k) :
    TlsClient.new m rd wr rng = (x, c) ↔ (handshake m).run (fresh rd wr rng) = (x, c) := by
  rw [new_run]
  rcases hr : (handshake m).run (fresh rd wr rng) with ⟨y, c0⟩
  cases y with
  | err k =>
    constructor
    · intro h
      rcases handshake_stage m rd wr rng _ c0 hr with ⟨h1, _⟩ | ⟨random, rest, sent, next, h1, h2, h3, ⟨h4, h5, n, h6⟩ | ⟨h4, h5, h6, h7, h8⟩⟩
      · cases h1
      · cases h4; cases h; exact absurd rfl (hx _)
      · by_cases hk : k = .IoFailure
        · subst hk; cases h; exact absurd rfl (hx _)
        · obtain ⟨ct, g1, w', ⟨g2, g3⟩ | ⟨g2, g3, n, g4⟩⟩ := sendAlert_cases m k hk c0 h6 h7
          · dsimp only at h; rw [g2] at h; cases h; exact absurd rfl (hx _)
          · dsimp only at h; rw [g2] at h; cases h; exact absurd rfl (hx _)
    · intro h; cases h; exact absurd rfl (hx _)
  | ok => exact Iff.rfl
  | panic => exact Iff.rfl
  | diverge => exact Iff.rfl

/-- C31: the wire carries exactly the four records when `new` succeeds. The keys and the verify data are the ones of the key schedule; `random` are the first
32 bytes of the random source; `server` is the server's first flight as in the client's transcript. -/
theorem C31_success (m : Mode) (rd : Reader) (wr : Writer) (rng : Rng) (c : TlsClient) (h : TlsClient.new m rd wr rng = (.ok (), c)) :
    ∃ random rest serverRandom server point pms, rng.bytes = random ++ rest ∧ random.length = 32 ∧ serverRandom.length = 32 ∧ point.length = 65 ∧
      let master := tlsMaster pms random serverRandom
      let K := keysOf master random serverRandom
      c.writer.writer.wire = wr.wire ++
        (recordBytes 22 3 3 (clientHelloBytes random) ++ recordBytes 22 3 3 (clientKeyExchangeBytes point) ++ recordBytes 20 3 3 [1] ++
          protectedRecord K.clientKey K.clientIv 0 22 (finishedBytes (verifyDataOf master (ascii "client finished") (handshakeMessages random server point)))) := by
  rw [new_of_handshake _ _ _ _ _ _ (by simp)] at h
  have ho := handshake_outcome m (fresh rd wr rng) (fresh_fresh rd wr rng)
  rw [h] at ho
  dsimp only at ho
  generalize hx : (Res.ok () : Res Unit) = x at ho
  cases ho with
  | noRandom => cases hx
  | helloLost => cases hx
  | flightFailed _ _ _ _ h3 => exact absurd hx.symm h3
  | secondLost => cases hx
  | sent cr rest f pub s1 s2 s3 s4 rng c4 h1 h2 h3 h4 h5 h6 h7 h8 h9 h10 h11 h12 h13 =>
    refine ⟨cr, rest, f.hello.random.data, serverMessages f, pub, f.preMasterSecret, h1, h2, h4.random, h4.point, ?_⟩
    rw [h9]
    simp [clientFlight, ServerFlight.clientVerify, ServerFlight.messages, ServerFlight.keys, ServerFlight.master, fresh, TlsWriter.new]

/-- Whatever happens, what goes out is a beginning of the flight followed by an alert; the flight is complete unless the transport failed. -/
theorem new_wire (m : Mode) (rd : Reader) (wr : Writer) (rng : Rng) :
    ∃ out, (TlsClient.new m rd wr rng).2.writer.writer.wire = wr.wire ++ out ∧
      ((rng.bytes.length < 32 ∧ out = []) ∨
       ∃ random rest sent next k0, rng.bytes = random ++ rest ∧ random.length = 32 ∧ Stage random sent next ∧ out <+: sent ++ next 21 [2, alertCode k0] ∧
        (sent <+: out ∨ wr.faults ≠ [])) := by
  rcases hn : TlsClient.new m rd wr rng with ⟨x, c⟩
  by_cases hx : ∃ k, x = .err k
  · obtain ⟨k, rfl⟩ := hx
    obtain ⟨random, rest, sent, next, h1, h2, h3, ⟨h4, h5⟩ | ⟨h4, h5⟩ | ⟨h4, h5, k0, n, h6, h7⟩⟩ := C32_alert m rd wr rng k c hn
    · exact ⟨_, by rw [h5, List.append_assoc], Or.inr ⟨random, rest, sent, next, k, h1, h2, h3, List.prefix_refl _, Or.inl (List.prefix_append _ _)⟩⟩
    · exact ⟨_, h5, Or.inr ⟨random, rest, sent, next, k, h1, h2, h3, List.prefix_append _ _, Or.inl (List.prefix_refl _)⟩⟩
    · exact ⟨_, h7, Or.inr ⟨random, rest, sent, next, k0, h1, h2, h3, List.take_prefix _ _, Or.inr h5⟩⟩
  · have hx : ∀ k, x ≠ .err k := fun k h => hx ⟨k, h⟩
    rw [new_of_handshake _ _ _ _ _ _ hx] at hn
    rcases handshake_stage m rd wr rng _ c hn with ⟨h1, h2, h3⟩ | ⟨random, rest, sent, next, h1, h2, h3, ⟨h4, h5, n, h6⟩ | ⟨h4, h5, h6, h7, h8⟩⟩
    · exact ⟨[], by rw [h3, List.append_nil], Or.inl ⟨h2, rfl⟩⟩
    · exact absurd h4 (hx _)
    · exact ⟨_, h4, Or.inr ⟨random, rest, sent, next, .IoFailure, h1, h2, h3, List.prefix_append _ _, Or.inl (List.prefix_refl _)⟩⟩

theorem Stage.hello_prefix {random sent : Bytes} {next : UInt8 → Bytes → Bytes} (h : Stage random sent next) : recordBytes 22 3 3 (clientHelloBytes random) <+: sent := by
  cases h with
  | hello => exact List.prefix_refl _
  | finished => exact ⟨_, rfl⟩

/-- C31: in every outcome, whatever the server and the transport do, what goes out begins with the ClientHello record (or is a part of it, if the transport
failed): nothing is sent before it. Nothing at all is sent only if the random source does not return. -/
theorem C31_hello_first (m : Mode) (rd : Reader) (wr : Writer) (rng : Rng) :
    ∃ out, (TlsClient.new m rd wr rng).2.writer.writer.wire = wr.wire ++ out ∧
      ((rng.bytes.length < 32 ∧ out = []) ∨
       ∃ random rest, rng.bytes = random ++ rest ∧ random.length = 32 ∧
        (recordBytes 22 3 3 (clientHelloBytes random) <+: out ∨ (wr.faults ≠ [] ∧ out <+: recordBytes 22 3 3 (clientHelloBytes random)))) := by
  obtain ⟨out, h1, h2 | ⟨random, rest, sent, next, k0, h2, h3, h4, h5, h6⟩⟩ := new_wire m rd wr rng
  · exact ⟨out, h1, Or.inl h2⟩
  · refine ⟨out, h1, Or.inr ⟨random, rest, h2, h3, ?_⟩⟩
    have hp := h4.hello_prefix
    rcases h6 with h6 | h6
    · exact Or.inl (hp.trans h6)
    · rcases Nat.le_total (recordBytes 22 3 3 (clientHelloBytes random)).length out.length with hle | hle
      · exact Or.inl (List.prefix_of_prefix_length_le (hp.trans (List.prefix_append _ _)) h5 hle)
      · exact Or.inr ⟨h6, List.prefix_of_prefix_length_le h5 (hp.trans (List.prefix_append _ _)) hle⟩

/-! ### C26 -/

/-- C26: whatever the server and the transport do, everything that `new` puts on the wire is a sequence of handshake, ChangeCipherSpec and alert records (the
last one possibly cut short by the transport): no application data. -/
theorem C26_no_application_data (m : Mode) (rd : Reader) (wr : Writer) (rng : Rng) :
    ∃ (records : List (UInt8 × Bytes)) (n : Nat), (∀ r ∈ records, (r.1 = 20 ∨ r.1 = 21 ∨ r.1 = 22) ∧ r.2.length < 2 ^ 16) ∧
      (TlsClient.new m rd wr rng).2.writer.writer.wire = wr.wire ++ (records.flatMap fun r => recordBytes r.1 3 3 r.2).take n := by
  obtain ⟨out, h1, ⟨_, h2⟩ | ⟨random, rest, sent, next, k0, h2, h3, h4, h5, h6⟩⟩ := new_wire m rd wr rng
  · exact ⟨[], 0, by simp, by rw [h1, h2]; rfl⟩
  · have hout : ∀ l : Bytes, out <+: l → out = l.take out.length := fun l h => (List.prefix_iff_eq_take.mp h)
    cases h4 with
    | hello =>
      refine ⟨[(22, clientHelloBytes random), (21, [2, alertCode k0])], out.length, ?_, ?_⟩
      · intro r hr
        rcases List.mem_cons.mp hr with rfl | hr
        · exact ⟨by simp, by rw [(clientHello_eq random h3).2.2]; decide⟩
        · rw [List.mem_singleton.mp hr]; exact ⟨by simp, by show 2 < 2 ^ 16; decide⟩
      · rw [h1, hout _ h5]; simp
    | finished point K vd g1 g2 g3 g4 =>
      have hsl : ∀ (k : Nat) (ty : UInt8) (f : Bytes), f.length ≤ 16384 →
          (Aead.sealMsg K.clientKey (recordNonce K.clientIv k) (recordAad k ty 3 3 f.length) f).length = f.length + 16 := by
        intro k ty f hf
        have hn : (recordNonce K.clientIv k).length = 12 := by simp [recordNonce, g3]
        obtain ⟨ct, e1, e2, _⟩ := C37_roundtrip .debug .debug K.clientKey _ f (recordAad k ty 3 3 f.length) g2 hn (by omega)
        rw [C39_encrypt_is_rfc8439 .debug _ _ _ _ g2 hn (by omega)] at e1
        rw [Res.ok.inj e1, e2]
      obtain ⟨_, _, l6⟩ := clientKeyExchange_eq point g1
      refine ⟨[(22, clientHelloBytes random), (22, clientKeyExchangeBytes point), (20, [1]),
        (22, Aead.sealMsg K.clientKey (recordNonce K.clientIv 0) (recordAad 0 22 3 3 (finishedBytes vd).length) (finishedBytes vd)),
        (21, Aead.sealMsg K.clientKey (recordNonce K.clientIv 1) (recordAad 1 21 3 3 [2, alertCode k0].length) [2, alertCode k0])], out.length, ?_, ?_⟩
      · intro r hr
        simp only [List.mem_cons, List.not_mem_nil, or_false] at hr
        rcases hr with rfl | rfl | rfl | rfl | rfl
        · exact ⟨by simp, by rw [(clientHello_eq random h3).2.2]; decide⟩
        · exact ⟨by simp, by rw [l6]; decide⟩
        · exact ⟨by simp, by decide⟩
        · have hl : (finishedBytes vd).length = 16 := by simp [finishedBytes, handshakeBytes, g4]
          exact ⟨by simp, by rw [hsl 0 22 _ (by rw [hl]; decide), hl]; decide⟩
        · exact ⟨by simp, by rw [hsl 1 21 _ (by simp)]; simp⟩
      · rw [h1, hout _ h5]
        simp [clientFlight, protectedRecord]

/-- C26: a constructed client has its encryptor and its decryptor, with keys of 32 bytes and IVs of 12. -/
theorem C26_keys_installed (m : Mode) (rd : Reader) (wr : Writer) (rng : Rng) (c : TlsClient) (h : TlsClient.new m rd wr rng = (.ok (), c)) :
    ∃ wk rk wi ri, wk.length = 32 ∧ rk.length = 32 ∧ wi.length = 12 ∧ ri.length = 12 ∧
      c.writer.encryptor = some (.chacha m wk) ∧ c.reader.decryptor = some (.chacha m rk) ∧ c.writer.iv = some wi ∧ c.reader.iv = some ri ∧ c.writer.writeCount = 1 ∧ c.buf = [] := by
  rw [new_of_handshake _ _ _ _ _ _ (by simp)] at h
  have ho := handshake_outcome m (fresh rd wr rng) (fresh_fresh rd wr rng)
  rw [h] at ho
  dsimp only at ho
  generalize hx : (Res.ok () : Res Unit) = x at ho
  cases ho with
  | noRandom => cases hx
  | helloLost => cases hx
  | flightFailed _ _ _ _ h3 => exact absurd hx.symm h3
  | secondLost => cases hx
  | sent cr rest f pub s1 s2 s3 s4 rng c4 h1 h2 h3 h4 h5 h6 h7 h8 h9 h10 h11 h12 h13 =>
    subst hx
    obtain ⟨k1, k2, k3, k4⟩ := h4.keys_length h2
    obtain ⟨t1, t2, r1, r2, rfl⟩ := readFinished_inv h4 h2 (by rw [h5]; exact h3.same.1) h8
    have q1 := readMessage_same r1
    have q2 := readMessage_same r2
    refine ⟨_, _, _, _, k1, k2, k3, k4, h10, q2.1, h11, ?_, h12, h7⟩
    exact q2.2.trans (q1.2.trans (by rw [h5]))

/-- C26: so `write` on a constructed client does not panic. -/
theorem C26_write (m : Mode) (rd : Reader) (wr : Writer) (rng : Rng) (c : TlsClient) (h : TlsClient.new m rd wr rng = (.ok (), c)) (m' : Mode) (buf : Bytes)
    (hb : buf.length < 2 ^ 64) : ((TlsClient.write m' buf).run c).1 = .ok buf.length ∨ ((TlsClient.write m' buf).run c).1 = .err .IoFailure := by
  obtain ⟨wk, _, _, _, k1, _, _, _, e1, _, _, _, e5, _⟩ := C26_keys_installed m rd wr rng c h
  rcases hw : (TlsClient.write m' buf).run c with ⟨x, c'⟩
  rcases C21_all_or_error m' buf c c' x ⟨m, wk, k1, e1⟩ (by rw [e5]; show 1 + _ < _; omega) hw with h | ⟨h, _⟩
  · exact Or.inl h
  · exact Or.inr h

end Husk
