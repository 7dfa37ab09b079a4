import Verif.Props.HandshakeGaps
/-! C101: extensions in the ServerHello that the client did not offer, or that it cannot agree to. -/

namespace Husk

open Item Spec TlsClient

/-! ### Specification -/

/-- The types of the extensions in the ClientHello (C31): elliptic_curves, ec_point_formats, signature_algorithms. -/
def offered : List Nat := [10, 11, 13]

/-- RFC 5246, 7.4.1.4: only types that are in the ClientHello, none of them twice. RFC 4492, 5.2: if the server lists the point formats it can parse, the
uncompressed one (0) is among them. -/
structure Agrees (exts : List (Nat × Bytes)) : Prop where
  asked : ∀ e ∈ exts, e.1 ∈ offered
  once : (exts.map Prod.fst).Nodup
  uncompressed : ∀ e ∈ exts, e.1 = 11 → 0 ∈ e.2.tail

/-- RFC 4492, 5.1.1 and 5.1.2, RFC 5246, 7.4.1.4.1: the content of the extensions the client offered. A list of curves of two bytes, of formats (0, 1 or 2), of pairs of a hash
(0 to 6) and a signature algorithm (0 to 3), not empty. -/
structure Content (ty : Nat) (d : Bytes) : Prop where
  curves : ty = 10 → ∃ cs : List (UInt8 × UInt8), cs ≠ [] ∧ 2 * cs.length < 2 ^ 16 ∧ d = beBytes 2 (2 * cs.length) ++ cs.flatMap fun c => [c.1, c.2]
  formats : ty = 11 → ∃ fs : Bytes, fs ≠ [] ∧ fs.length < 2 ^ 8 ∧ (∀ f ∈ fs, f.toNat ≤ 2) ∧ d = UInt8.ofNat fs.length :: fs
  algorithms : ty = 13 → ∃ l : List (UInt8 × UInt8), l ≠ [] ∧ 2 * l.length < 2 ^ 16 ∧ (∀ a ∈ l, a.1.toNat ≤ 6 ∧ a.2.toNat ≤ 3) ∧
    d = beBytes 2 (2 * l.length) ++ l.flatMap fun c => [c.1, c.2]

/-- C101, the full statement: a server whose extensions do not agree with the ClientHello is not accepted. -/
def ChecksExtensions (m : Mode) : Prop := Authenticates m fun _ V => ∀ es, V.exts = some es → Agrees es

/-! ### What the code does -/

theorem exts_conform (es : List (Nat × Bytes)) (h : ∀ e ∈ es, ServerExt e) (hl : (extensionBlock es).length < 2 ^ 16 + 2) :
    ServerValues.Conforms { random := List.replicate 32 7, secret := 1, exts := some es } :=
  ⟨by simp, by simp, fun l hl' => by cases Option.some.inj hl'; exact ⟨h, hl⟩, by simp, (by decide : (certificateBytes []).length < 2 ^ 24), by rw [one_nsmul]; exact Spec.P256.G_ne_zero, by simp⟩

theorem not_checked (m : Mode) (es : List (Nat × Bytes)) (h : ∀ e ∈ es, ServerExt e) (hl : (extensionBlock es).length < 2 ^ 16 + 2) (valid : List (Nat × Bytes) → Prop)
    (hne : ¬ valid es) : ¬ Authenticates m fun _ V => ∀ es, V.exts = some es → valid es :=
  C30_not_authenticated m _ (List.replicate 32 0) (by simp) _ (exts_conform es h hl) fun h => hne (h es rfl)

/-- C101 is false of the code: an extension of any type that the client does not know, with any content, is accepted. -/
theorem C101_unasked (m : Mode) (ty : Nat) (d : Bytes) (h1 : ty < 2 ^ 16) (h2 : ty ∉ offered) (h3 : d.length < 2 ^ 16 - 4) :
    ¬ Authenticates m fun _ V => ∀ es, V.exts = some es → ∀ e ∈ es, e ≠ (ty, d) := by
  simp only [offered, List.mem_cons, List.not_mem_nil, or_false, not_or] at h2
  refine not_checked m [(ty, d)] ?_ ?_ (fun es => ∀ e ∈ es, e ≠ (ty, d)) (fun h => h _ (by simp) rfl)
  · intro e he
    rw [List.mem_singleton.mp he]
    exact ⟨h1, by show d.length < _; omega, .inl h2⟩
  · simp only [extensionBlock, List.flatMap_cons, List.flatMap_nil, List.length_append, beBytes_length, List.length_nil]
    omega

/-- The same extension may come any number of times (an empty one, up to 16383 times). -/
theorem C101_repeated (m : Mode) (n : Nat) (hn : n < 2 ^ 14) : ¬ Authenticates m fun _ V => ∀ es, V.exts = some es → ∀ ty d, es.count (ty, d) < n := by
  have hlen : ∀ k, ((List.replicate k ((0, []) : Nat × Bytes)).flatMap fun e => beBytes 2 e.1 ++ beBytes 2 e.2.length ++ e.2).length = 4 * k := by
    intro k
    induction k with
    | zero => rfl
    | succ k ih =>
      rw [List.replicate_succ, List.flatMap_cons, List.length_append, ih]
      simp only [List.length_append, beBytes_length, List.length_nil]
      omega
  refine not_checked m (List.replicate n (0, [])) ?_ ?_ (fun es => ∀ ty d, es.count (ty, d) < n) (fun h => ?_)
  · intro e he
    rw [(List.mem_replicate.mp he).2]
    exact ⟨by decide, by decide, .inl ⟨by decide, by decide, by decide⟩⟩
  · rw [extensionBlock, List.length_append, beBytes_length, hlen]
    omega
  · have := h 0 []
    rw [List.count_replicate_self] at this
    omega

/-- A server that says it cannot parse uncompressed points, the only ones the client sends, is accepted. -/
theorem C101_compressed_only (m : Mode) : ¬ Authenticates m fun _ V => ∀ es, V.exts = some es → ∀ e ∈ es, e.1 = 11 → 0 ∈ e.2.tail := by
  refine not_checked m [(11, [1, 1])] ?_ (by decide) (fun es => ∀ e ∈ es, e.1 = 11 → 0 ∈ e.2.tail) (fun h => ?_)
  · intro e he
    rw [List.mem_singleton.mp he]
    exact ⟨by decide, by decide, .inr ⟨rfl, [1], by simp, by simp, by simp, rfl⟩⟩
  · have := h _ (List.mem_singleton.mpr rfl) rfl
    simp at this

theorem C101_not_checked (m : Mode) : ¬ ChecksExtensions m := by
  refine not_checked m [(0, [])] ?_ (by decide) Agrees fun h => ?_
  · intro e he
    rw [List.mem_singleton.mp he]
    exact ⟨by decide, by decide, .inl ⟨by decide, by decide, by decide⟩⟩
  · exact absurd (h.asked _ (List.mem_singleton.mpr rfl)) (by decide)

theorem pairs_length (l : List (UInt8 × UInt8)) : (l.flatMap fun c => [c.1, c.2]).length = 2 * l.length := by
  induction l with
  | nil => rfl
  | cons a l ih => rw [List.flatMap_cons, List.length_append, ih]; simp; omega

theorem content_of (e : Extension) (h : Wire.ExtensionInBounds e) (hn : NotShadowed e) : Content (Wire.extensionType e) (Wire.extensionData e) := by
  cases e with
  | elliptic_curves l =>
    obtain ⟨h1, h2⟩ := h
    refine ⟨fun _ => ⟨l.items.map fun c => (UInt8.ofNat (Wire.curve c / 256), UInt8.ofNat (Wire.curve c)), ?_, ?_, ?_⟩, fun h => ?_, fun h => ?_⟩
    · intro hx; have := congrArg List.length hx; simp at this; rw [this] at h1; simp at h1
    · rw [List.length_map]; omega
    · have e : (l.items.flatMap fun c => Wire.u16 (Wire.curve c)) =
          (l.items.map fun c => (UInt8.ofNat (Wire.curve c / 256), UInt8.ofNat (Wire.curve c))).flatMap fun c => [c.1, c.2] := by
        rw [List.flatMap_map]; rfl
      rw [Wire.extensionData, Wire.vec16, e, pairs_length, WireLemmas.beBytes_two]
    · exact absurd h (by simp [Wire.extensionType])
    · exact absurd h (by simp [Wire.extensionType])
  | ec_point_formats l =>
    obtain ⟨h1, h2⟩ := h
    refine ⟨fun h => ?_, fun _ => ⟨l.items.map fun f => UInt8.ofNat (Wire.pointFormat f), ?_, ?_, ?_, ?_⟩, fun h => ?_⟩
    · exact absurd h (by simp [Wire.extensionType])
    · intro hx; have := congrArg List.length hx; simp at this; rw [this] at h1; simp at h1
    · rw [List.length_map]; omega
    · intro f hf
      obtain ⟨x, -, rfl⟩ := List.mem_map.mp hf
      cases x <;> decide
    · have e : (l.items.flatMap fun f => Wire.u8 (Wire.pointFormat f)) = l.items.map fun f => UInt8.ofNat (Wire.pointFormat f) := by
        rw [List.map_eq_flatMap]; rfl
      rw [Wire.extensionData, Wire.vec8, e]; rfl
    · exact absurd h (by simp [Wire.extensionType])
  | signature_algorithms l =>
    obtain ⟨h1, h2⟩ := h
    refine ⟨fun h => ?_, fun h => ?_, fun _ => ⟨l.items.map fun a => (UInt8.ofNat (Wire.hash a.hash), UInt8.ofNat (Wire.signature a.signature)), ?_, ?_, ?_, ?_⟩⟩
    · exact absurd h (by simp [Wire.extensionType])
    · exact absurd h (by simp [Wire.extensionType])
    · intro hx; have := congrArg List.length hx; simp at this; rw [this] at h1; simp at h1
    · rw [List.length_map]; omega
    · intro a ha
      obtain ⟨x, -, rfl⟩ := List.mem_map.mp ha
      obtain ⟨hh, ss⟩ := x
      constructor
      · show (UInt8.ofNat (Wire.hash hh)).toNat ≤ 6
        cases hh <;> decide
      · show (UInt8.ofNat (Wire.signature ss)).toNat ≤ 3
        cases ss <;> decide
    · have e : l.items.flatMap Wire.sigHash =
          (l.items.map fun a => (UInt8.ofNat (Wire.hash a.hash), UInt8.ofNat (Wire.signature a.signature))).flatMap fun c => [c.1, c.2] := by
        rw [List.flatMap_map]; rfl
      rw [Wire.extensionData, Wire.vec16, e, pairs_length, WireLemmas.beBytes_two]
  | Unknown ty d =>
    obtain ⟨h1, h2, h3⟩ := hn
    refine ⟨fun h => ?_, fun h => ?_, fun h => ?_⟩
    · exact absurd (UInt16.toNat_inj.mp (show ty.toNat = (10 : UInt16).toNat from h)) h1
    · exact absurd (UInt16.toNat_inj.mp (show ty.toNat = (11 : UInt16).toNat from h)) h2
    · exact absurd (UInt16.toNat_inj.mp (show ty.toNat = (13 : UInt16).toNat from h)) h3

theorem block_of (v : ExtensionVec) : Wire.extensions (some v) = extensionBlock (v.items.map fun e => (Wire.extensionType e, Wire.extensionData e)) := by
  have e : v.items.flatMap Wire.extension =
      (v.items.map fun e => (Wire.extensionType e, Wire.extensionData e)).flatMap fun e => beBytes 2 e.1 ++ beBytes 2 e.2.length ++ e.2 := by
    rw [List.flatMap_map]
    refine congrArg (fun f => List.flatMap f v.items) (funext fun e => ?_)
    rw [WireLemmas.beBytes_two, WireLemmas.beBytes_two, Wire.extension, Wire.vec16, List.append_assoc]
  rw [extensionBlock, ← e, WireLemmas.beBytes_two]
  rfl

/-- What holds (partial C101), whatever the server sends: if `TlsClient::new` succeeds, what follows the compression method of the ServerHello is nothing, or an extension block
of RFC 5246 (and whatever follows it, C33); an extension of a type the client offered has a content of the form prescribed for it; and the extensions change nothing of
the keys. -/
theorem C101_well_formed_partial (m : Mode) (rd : Reader) (wr : Writer) (rng : Rng) (c : TlsClient) (h : TlsClient.new m rd wr rng = (.ok (), c)) :
    ∃ S clear prot a b protWire pre post, Completed m rd wr rng c S clear prot a b protWire pre post ∧
      (∃ more, clear.flatMap (fun r => r.2.2) = serverHelloBytes S.serverRandom S.sessionId (S.ext ++ S.junk) ++ more) ∧
      ((S.ext = [] ∧ S.junk = []) ∨ ∃ es : List (Nat × Bytes), S.ext = extensionBlock es ∧ (extensionBlock es).length < 2 ^ 16 + 2 ∧
        ∀ e ∈ es, e.1 < 2 ^ 16 ∧ e.2.length < 2 ^ 16 ∧ Content e.1 e.2) ∧
      ∀ ext junk, { S with ext := ext, junk := junk }.keys = S.keys := by
  obtain ⟨S, clear, prot, a, b, protWire, pre, post, H⟩ := C27_flight_partial m rd wr rng c h
  obtain ⟨x, h1, h2, h3⟩ := H.extensions
  refine ⟨S, clear, prot, a, b, protWire, pre, post, H, ?_, ?_, fun _ _ => rfl⟩
  · rw [H.messages, Session.flight]
    simp only [List.append_assoc]
    exact ⟨_, rfl⟩
  · cases x with
    | none => exact .inl ⟨h3, H.junk h3⟩
    | some v =>
      obtain ⟨h1, h4⟩ := h1
      refine .inr ⟨_, h3.trans (block_of v), ?_, fun e he => ?_⟩
      · rw [← block_of, Wire.extensions, Wire.vec16, Wire.u16, List.length_append]
        simp only [List.length_cons, List.length_nil]
        omega
      · obtain ⟨y, hy, rfl⟩ := List.mem_map.mp he
        refine ⟨?_, ?_, content_of y (h4 y hy) (h2 y hy)⟩
        · cases y with
          | Unknown ty d => exact UInt16.toNat_lt ty
          | elliptic_curves l => exact (by decide : 10 < 2 ^ 16)
          | ec_point_formats l => exact (by decide : 11 < 2 ^ 16)
          | signature_algorithms l => exact (by decide : 13 < 2 ^ 16)
        · have : (Wire.extension y).length ≤ (v.items.flatMap Wire.extension).length := (List.sublist_flatten_of_mem (List.mem_map_of_mem hy)).length_le
          rw [Wire.extension, Wire.vec16, List.length_append, List.length_append] at this
          show (Wire.extensionData y).length < _
          omega

/-- The hypothesis is met: there are handshakes that complete, with extensions too. -/
example (m : Mode) : ∃ rd wr rng c, TlsClient.new m rd wr rng = (.ok (), c) := by
  refine Classical.byContradiction fun h => C101_not_checked m fun rd wr rng _ _ _ _ _ _ _ _ _ _ _ _ hok => absurd ⟨rd, wr, rng, _, Prod.ext hok rfl⟩ h

end Husk
