import Verif.Props.SessionData
import Verif.Props.NoPanic
/-! C69: what the application receives was sent by the owner of the session keys, unless somebody forged a record. -/

namespace Husk

open Item Spec TlsReader TlsClient

/-! ### Specification -/

/-- The application data among records (type and content) that were sealed. -/
def appSealed (items : List (UInt8 × Bytes)) : Bytes := items.flatMap fun r => if r.1 = 23 then r.2 else []

/-- A forgery in a stream: a record that opens under the key with number `k` and is not the record with number `k` that the owner of the key made. `items` is everything
the owner sealed, in order. The record has a length the reader accepts, and its number is below the number of bytes of the stream. -/
def Forgery (key iv : Bytes) (items : List (UInt8 × Bytes)) (l : List Sym) : Prop :=
  ∃ k ty a b ct p, k < countBytes l ∧ ct.length ≤ 18432 ∧ ofBytes (recordBytes ty a b ct) <:+: l ∧
    Spec.Aead.openMsg key (recordNonce iv k) (recordAad k ty a b p.length) ct = some p ∧
    ∀ r, items[k]? = some r → recordBytes ty a b ct ≠ protectedRecord key iv k r.1 r.2

/-! ### Proofs -/

theorem openMsg_sealMsg (key nonce aad p : Bytes) : Spec.Aead.openMsg key nonce aad (Spec.Aead.sealMsg key nonce aad p) = some p := by
  have ht : ∀ c, (Spec.Aead.tag key nonce aad c).length = 16 := fun _ => Spec.Poly1305.mac_length _ _ _
  have he : (Spec.ChaCha20.encrypt key 1 nonce p).length = p.length := by simp [Spec.ChaCha20.encrypt]
  have hl : (Spec.Aead.sealMsg key nonce aad p).length = p.length + 16 := by
    rw [Spec.Aead.sealMsg, List.length_append, ht, he]
  have h1 : (Spec.Aead.sealMsg key nonce aad p).take p.length = Spec.ChaCha20.encrypt key 1 nonce p := by
    rw [Spec.Aead.sealMsg, List.take_left' he]
  have h2 : (Spec.Aead.sealMsg key nonce aad p).drop p.length = Spec.Aead.tag key nonce aad (Spec.ChaCha20.encrypt key 1 nonce p) := by
    rw [Spec.Aead.sealMsg, List.drop_left' he]
  rw [Spec.Aead.openMsg, if_neg (by omega), hl, Nat.add_sub_cancel]
  simp only
  rw [h1, h2, if_pos rfl]
  congr 1
  apply List.ext_getElem
  · simp [Spec.ChaCha20.encrypt]
  · intro i _ _
    simp [Spec.ChaCha20.encrypt, UInt8.xor_assoc]

theorem recordBytes_inj {ty a b ty' a' b' : UInt8} {f f' : Bytes} (h : recordBytes ty a b f = recordBytes ty' a' b' f') : ty = ty' ∧ a = a' ∧ b = b' ∧ f = f' := by
  simp only [recordBytes, List.cons_append, List.nil_append, List.cons.injEq] at h
  obtain ⟨h1, h2, h3, h4⟩ := h
  exact ⟨h1, h2, h3, (List.append_inj h4 (by simp)).2⟩

/-- A record that is the owner's record number `k` opens to what the owner sealed. -/
theorem opened_genuine {key iv : Bytes} {k : Nat} {ty a b : UInt8} {ct p : Bytes} {r : UInt8 × Bytes}
    (ho : Spec.Aead.openMsg key (recordNonce iv k) (recordAad k ty a b p.length) ct = some p) (h : recordBytes ty a b ct = protectedRecord key iv k r.1 r.2) :
    ty = r.1 ∧ p = r.2 := by
  obtain ⟨rfl, rfl, rfl, h4⟩ := recordBytes_inj h
  refine ⟨rfl, ?_⟩
  have hl := openMsg_length ho
  have hl2 : (Spec.Aead.sealMsg key (recordNonce iv k) (recordAad k r.1 3 3 r.2.length) r.2).length = r.2.length + 16 :=
    openMsg_length (openMsg_sealMsg _ _ _ _)
  rw [h4, hl2] at hl
  have : p.length = r.2.length := by omega
  rw [h4, this, openMsg_sealMsg] at ho
  exact (Option.some.inj ho).symm

/-- Records that open, in a stream that may hold other things between them: no forgery means they are the owner's. -/
theorem opened_prefix {key iv : Bytes} {items : List (UInt8 × Bytes)} {whole : List Sym} (hno : ¬ Forgery key iv items whole) {k : Nat} {l : List Sym} {rs}
    (h : Opened key iv k l rs) (hl : l <:+ whole) (hk : k + rs.length < 2 ^ 64) (hw : k + rs.length ≤ countBytes whole) :
    rs.map (fun r => (r.1, r.2.2.2)) <+: items.drop k := by
  induction h with
  | nil => exact List.nil_prefix
  | @cons k l l' ty a b p ct rs h1 h2 h3 h4 ih =>
    simp only [List.length_cons] at hk hw
    rw [Nat.mod_eq_of_lt (by omega)] at h3
    have hin : ofBytes (recordBytes ty a b ct) <:+: whole := by
      have : ofBytes (recordBytes ty a b ct) <:+: ofBytes (recordBytes ty a b ct) ++ l' := (List.prefix_append _ _).isInfix
      exact this.trans ((h1.trans hl).isInfix)
    have hl' : l' <:+ whole := (List.suffix_append _ _).trans (h1.trans hl)
    have ih := ih hl' (by omega) (by omega)
    cases hi : items[k]? with
    | none => exact absurd ⟨k, ty, a, b, ct, p, by omega, h2, hin, h3, by simp [hi]⟩ hno
    | some r =>
      by_cases he : recordBytes ty a b ct = protectedRecord key iv k r.1 r.2
      · obtain ⟨rfl, rfl⟩ := opened_genuine h3 he
        obtain ⟨hlt, hget⟩ := List.getElem?_eq_some_iff.mp hi
        rw [List.drop_eq_getElem_cons hlt, hget]
        exact List.cons_prefix_cons.mpr ⟨rfl, ih⟩
      · exact absurd ⟨k, ty, a, b, ct, p, by omega, h2, hin, h3, fun r' hr' => by rw [hi] at hr'; cases hr'; exact he⟩ hno

/-- The protected records of the handshake and those behind it, as one list. -/
theorem ProtectedStream.opened {key iv : Bytes} {ty : UInt8} {k : Nat} {prot : List (UInt8 × UInt8 × Bytes)} {w : Bytes} (h : ProtectedStream key iv ty k prot w) {l : List Sym} {rs}
    (ho : Opened key iv (k + prot.length) l rs) : Opened key iv k (ofBytes w ++ l) (prot.map (fun r => (ty, r)) ++ rs) := by
  induction h with
  | nil => exact ho
  | cons h1 h2 h3 ih =>
    rw [List.map_cons, List.cons_append]
    refine .cons ?_ h1 h2 (ih (by rwa [List.length_cons, Nat.add_comm _ 1, ← Nat.add_assoc] at ho))
    rw [ofBytes_append, List.append_assoc]

theorem Opened.count {key iv : Bytes} {k : Nat} {l : List Sym} {rs} (h : Opened key iv k l rs) : rs.length ≤ countBytes l := by
  induction h with
  | nil => exact Nat.zero_le _
  | cons h1 _ _ _ ih =>
    have := countBytes_suffix h1
    rw [countBytes_append, countBytes_ofBytes, recordBytes_length] at this
    rw [List.length_cons]
    omega

theorem appData_map (rs : List (UInt8 × UInt8 × UInt8 × Bytes)) : appData rs = appSealed (rs.map fun r => (r.1, r.2.2.2)) := by
  simp [appData, appSealed, List.flatMap_map]

theorem appSealed_prefix {a b : List (UInt8 × Bytes)} (h : a <+: b) : appSealed a <+: appSealed b := by
  obtain ⟨t, rfl⟩ := h
  simp only [appSealed, List.flatMap_append]
  exact List.prefix_append _ _

/-- C69: after every successful handshake, whatever the network does: let `items` be everything that the other holder of the session keys sealed under the server's
key, in order. In any history of calls the bytes handed out are an initial part of the application data among `items`, or the stream contains a forgery. In
particular no record is replayed, dropped, reordered or moved from another session without a forgery. -/
theorem C69_genuine_or_forged (m : Mode) (rd : Reader) (wr : Writer) (rng : Rng) (hn : countBytes rd.stream < 2 ^ 64) (c : TlsClient)
    (h : TlsClient.new m rd wr rng = (.ok (), c)) (calls : List Call) (hret : ∀ r ∈ (runCalls m calls c).1, r.Returned) :
    ∃ S clear prot a b protWire pre post, Completed m rd wr rng c S clear prot a b protWire pre post ∧
      ∀ items, received (runCalls m calls c).1 <+: appSealed items ∨ Forgery S.keys.serverKey S.keys.serverIv items rd.stream := by
  obtain ⟨S, clear, prot, a, b, protWire, pre, post, hC, rs, h1, h2⟩ := C66_received m rd wr rng c h calls hret
  refine ⟨S, clear, prot, a, b, protWire, pre, post, hC, fun items => ?_⟩
  by_cases hF : Forgery S.keys.serverKey S.keys.serverIv items rd.stream
  · exact Or.inr hF
  left
  have ho := hC.opened.opened (l := c.reader.reader.stream) (rs := rs) (by rw [Nat.zero_add]; exact h1)
  have hsuf : ofBytes protWire ++ c.reader.reader.stream <:+ rd.stream := by
    rw [hC.stream, ofBytes_append, ofBytes_append, List.append_assoc, List.append_assoc]
    exact (List.suffix_append _ _).trans (List.suffix_append _ _)
  have hcount := ho.count
  have := countBytes_suffix hsuf
  have hp := opened_prefix hF ho hsuf (by omega) (by omega)
  rw [List.drop_zero] at hp
  refine List.IsPrefix.trans ?_ (appSealed_prefix hp)
  rw [← appData_map]
  have : appData (prot.map (fun r => ((22 : UInt8), r)) ++ rs) = appData rs := by
    simp only [appData, List.flatMap_append, List.flatMap_map]
    simp
  rw [this, ← h2]
  exact List.prefix_append _ _

theorem clear_length (fs : List Bytes) : (fs.flatMap (recordBytes 22 3 3)).length = fs.flatten.length + 5 * fs.length := by
  induction fs with
  | nil => rfl
  | cons f fs ih => simp only [List.flatMap_cons, List.length_append, recordBytes_length, ih, List.flatten_cons, List.length_cons]; omega

theorem protectedRecords_length (key iv : Bytes) (ty : UInt8) (k : Nat) (fs : List Bytes) : (protectedRecords key iv ty k fs).length = fs.flatten.length + 21 * fs.length := by
  induction fs generalizing k with
  | nil => rfl
  | cons f fs ih =>
    simp only [protectedRecords, protectedRecord, List.length_append, recordBytes_length, ih, List.flatten_cons, List.length_cons, openMsg_length (openMsg_sealMsg _ _ _ _)]
    omega

/-- A handshake and reads that meet the hypotheses; the data are those of the server. -/
example (m : Mode) : ∃ rd wr rng c, TlsClient.new m rd wr rng = (.ok (), c) ∧ countBytes rd.stream < 2 ^ 64 ∧
    (∀ r ∈ (runCalls m [.read 2, .read 1] c).1, r.Returned) ∧ received (runCalls m [.read 2, .read 1] c).1 = [7, 8, 9] := by
  obtain ⟨V, hV⟩ : ∃ V : ServerValues, V.Conforms := ⟨{ random := List.replicate 32 7, secret := 1 },
    ⟨by simp, by simp, by simp, by simp, by decide, by rw [one_nsmul]; exact Spec.P256.G_ne_zero, by simp⟩⟩
  have D : Draws (List.replicate 32 0 ++ (5 :: List.replicate 31 0)) (List.replicate 32 0) (5 :: List.replicate 31 0) [] :=
    ⟨⟨[], by simp, by simp⟩, by simp, by simp, by decide⟩
  obtain ⟨S, hS⟩ : ∃ S, S = V.session (List.replicate 32 0) (clientPoint (5 :: List.replicate 31 0)) := ⟨_, rfl⟩
  have hsv := serverVerify_length D hV hS
  have hfl := flight_length hV hS
  have hc1 : Cuts (chunks 16384 S.flight) S.flight := cuts_exists _ (by omega)
  have hc2 : Cuts (chunks 16384 (finishedBytes S.serverVerify)) (finishedBytes S.serverVerify) := cuts_exists _ (by simp [finishedBytes, handshakeBytes, hsv])
  obtain ⟨c, h1, outs, h2, h3, h4⟩ := C66_delivered m
    (byteByByte (serverWire S (chunks 16384 S.flight) (chunks 16384 (finishedBytes S.serverVerify)) ++
      protectedRecords S.keys.serverKey S.keys.serverIv 23 (chunks 16384 (finishedBytes S.serverVerify)).length [[7, 8], [9]])) {} ⟨_⟩ rfl _ _ _ D V hV S hS _ _ [[7, 8], [9]]
    (by simp) (by simp) [] ⟨hc1, hc2, by rw [stream_byteByByte, ofBytes_append, List.append_nil]⟩ [.read 2, .read 1] (by decide)
  refine ⟨_, _, _, c, h1, ?_, ?_, h4⟩
  · have l2 : (finishedBytes S.serverVerify).length = 16 := by simp [finishedBytes, handshakeBytes, hsv]
    have n1 : (chunks 16384 S.flight).length = (S.flight.length + 16384 - 1) / 16384 := chunks_count (by decide) _
    have n2 : (chunks 16384 (finishedBytes S.serverVerify)).length = (16 + 16384 - 1) / 16384 := by rw [chunks_count (by decide), l2]
    rw [stream_byteByByte, countBytes_ofBytes, List.length_append, serverWire, List.length_append, List.length_append, clear_length, protectedRecords_length,
      protectedRecords_length, hc1.2.2, hc2.2.2, recordBytes_length, l2, n1, n2]
    simp only [List.flatten_cons, List.flatten_nil, List.length_append, List.length_cons, List.length_nil]
    omega
  · intro r hr
    have : r ∈ (runCalls m [.read 2, .read 1] c).1.filter CallResult.isRead := by
      rw [List.mem_filter]
      refine ⟨hr, ?_⟩
      simp only [runCalls, Call.run, List.mem_cons, List.not_mem_nil, or_false] at hr
      rcases hr with rfl | rfl <;> rfl
    rw [h2] at this
    obtain ⟨o, -, rfl⟩ := List.mem_map.mp this
    trivial

end Husk
