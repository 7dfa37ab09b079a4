import Verif.Proofs.StreamItem
import Verif.Props.Wire
/-! C90, C91: `tls_read` and `tls_write` of every item on an arbitrary transport. -/

namespace Husk

open Spec Codec WireLemmas

/-- Reading an item from a transport that delivers the bytes `b` and then ends or stops (a failure, or a read of 0 bytes), in whatever pieces,
has the result of reading it from `b` in memory; what is left is what the read in memory leaves, and whatever comes after the stop. If the bytes
do not suffice, the stop is used up. -/
def DecodesFromTransport (α : Type) [TlsItem α] [StreamItem α] : Prop :=
  ∀ (rd : Reader) (b : Bytes) (tail : List Sym), (tail = [] ∨ ∃ l, tail = .stop :: l) → rd.stream = ofBytes b ++ tail →
    ∃ rd', readFrom.run rd = (((TlsItem.read (α := α)).run b).1, rd') ∧
      (((TlsItem.read (α := α)).run b).1 ≠ .err .IoFailure → rd'.stream = ofBytes ((TlsItem.read (α := α)).run b).2 ++ tail) ∧
      (((TlsItem.read (α := α)).run b).1 = .err .IoFailure → rd'.stream = tail.tail)

/-- The same for transports that deliver `b` and end. -/
def DecodesToEnd (α : Type) [TlsItem α] [StreamItem α] : Prop :=
  ∀ (rd : Reader) (b : Bytes), rd.stream = ofBytes b → ∃ rd', readFrom.run rd = (((TlsItem.read (α := α)).run b).1, rd') ∧
    (((TlsItem.read (α := α)).run b).1 ≠ .err .IoFailure → rd'.stream = ofBytes ((TlsItem.read (α := α)).run b).2)

/-- Writing an item to a transport: on `Ok`, exactly the bytes written in memory were added; on an I/O failure, the first few of them. If the
transport does not fail, neither does the write, unless the item cannot be written at all. -/
def WritesToTransport (α : Type) [TlsItem α] [StreamItem α] : Prop :=
  ∀ (x : α) (w : Writer), ∃ (res : Res Unit) (sent : Bytes) (w' : Writer), (writeTo x).run w = (res, w') ∧ w'.wire = w.wire ++ sent ∧
    ((∃ u, res = .ok u) ∨ ∃ k, res = .err k) ∧ (∀ u, res = .ok u → TlsItem.write x = .ok sent) ∧
    (∀ k, res = .err k → TlsItem.write x = .err k ∨ (k = .IoFailure ∧ ∀ b, TlsItem.write x = .ok b → sent <+: b)) ∧
    (w.faults = [] → ∀ b, TlsItem.write x = .ok b → res = .ok ())

/-- The transport breaks: it gives bytes, at least one at a time, perhaps with interruptions, and then an error. -/
def Reader.Breaks (rd : Reader) : Prop := ∃ pre post, rd.script = pre ++ .fail false :: post ∧ ∀ e ∈ pre, e ≠ .fail false ∧ e ≠ .data []

/-- An item that extends to the end of the input is not taken from a transport that breaks. -/
def NotFromBroken (α : Type) [StreamItem α] : Prop := ∀ (rd : Reader) (x : α), rd.Breaks → ((readFrom (α := α)).run rd).1 ≠ .ok x

namespace Streaming

theorem decodes_of_sim [TlsItem α] [StreamItem α] [ClosedStream α] : DecodesFromTransport α := by
  intro rd b tail ht hs
  obtain ⟨rd', h1, h2⟩ := ClosedStream.sim (α := α) rd b tail (ht.imp_right fun h => ⟨rfl, h⟩) hs
  refine ⟨rd', h1, fun hn => ?_, fun hn => ?_⟩
  · rw [h2]
    cases h : ((TlsItem.read (α := α)).run b).1 with
    | err k => cases k <;> first | rfl | exact absurd h hn
    | _ => rfl
  · rw [h2, hn]; rfl

theorem ends_of_sim [TlsItem α] [StreamItem α] [TailStream α] : DecodesToEnd α := by
  intro rd b hs
  obtain ⟨rd', h1, h2⟩ := TailStream.sim (α := α) rd b [] (.inl rfl) (by rw [hs, List.append_nil])
  refine ⟨rd', h1, fun hn => ?_⟩
  rw [h2]
  cases h : ((TlsItem.read (α := α)).run b).1 with
  | err k => cases k <;> first | exact List.append_nil _ | exact absurd h hn
  | _ => exact List.append_nil _

theorem writes_of_sim [TlsItem α] [StreamItem α] [TailStream α] : WritesToTransport α := by
  intro x w
  obtain ⟨res, sent, fs, h1, h2, h3⟩ := TailStream.wsim x w
  refine ⟨res, sent, _, h1, rfl, ?_, ?_, ?_, ?_⟩
  · cases res with
    | ok u => exact .inl ⟨u, rfl⟩
    | err k => exact .inr ⟨k, rfl⟩
    | _ => exact h2.elim
  · rintro u rfl; exact h2
  · rintro k rfl; exact h2.symm
  · intro hw b hb
    cases res with
    | ok u => rfl
    | err k =>
      have := (h3 hw).2 k rfl
      rw [hb] at this
      cases this
    | _ => exact h2.elim

/-- Every stream is bytes up to its first stop. -/
theorem split : ∀ l : List Sym, ∃ (b : Bytes) (tail : List Sym), (tail = [] ∨ ∃ l', tail = .stop :: l') ∧ l = ofBytes b ++ tail
  | [] => ⟨[], [], .inl rfl, rfl⟩
  | .stop :: l => ⟨[], .stop :: l, .inr ⟨l, rfl⟩, rfl⟩
  | .byte x :: l => by
    obtain ⟨b, tail, h1, h2⟩ := split l
    exact ⟨x :: b, tail, h1, by rw [h2]; rfl⟩

/-- The bytes of an item, followed by anything. -/
theorem read_exact [TlsItem α] [StreamItem α] [ClosedStream α] {x : α} {b : Bytes}
    (h : ∀ rest, (TlsItem.read (α := α)).run (b ++ rest) = (.ok x, rest)) (rd : Reader) (l : List Sym) (hs : rd.stream = ofBytes b ++ l) :
    ∃ rd', readFrom.run rd = (.ok x, rd') ∧ rd'.stream = l := by
  obtain ⟨c, tail, ht, rfl⟩ := split l
  obtain ⟨rd', h1, h2⟩ := ClosedStream.sim (α := α) rd (b ++ c) tail (ht.imp_right fun h => ⟨rfl, h⟩) (by
    rw [hs, ← List.append_assoc]; congr 1; simp [ofBytes])
  rw [h] at h1 h2
  exact ⟨rd', h1, h2⟩

theorem closed_returns [TlsItem α] [StreamItem α] [ClosedStream α] (h : ∀ b, ((TlsItem.read (α := α)).run b).1.Returns) (rd : Reader) :
    ((readFrom (α := α)).run rd).1.Returns := by
  obtain ⟨c, tail, ht, hs⟩ := split rd.stream
  obtain ⟨rd', h1, _⟩ := ClosedStream.sim (α := α) rd c tail (ht.imp_right fun h => ⟨rfl, h⟩) hs
  rw [h1]
  exact h c

theorem lawful_returns [TlsItem α] [WFItem α] [LawfulItem α] [StreamItem α] [ClosedStream α] (rd : Reader) :
    ((readFrom (α := α)).run rd).1.Returns := closed_returns LawfulItem.read_returns rd

theorem readToEnd_returns (rd : Reader) : (Reader.readToEnd.run rd).1.Returns := by
  have key : ∀ (es : List Ev) (acc : Bytes), (Reader.readToEndLoop es acc).1.Returns := by
    intro es
    induction es with
    | nil => intro acc; trivial
    | cons e es ih =>
      intro acc
      cases e with
      | data d =>
        rw [Reader.readToEndLoop]
        split
        · trivial
        · exact ih _
      | fail i =>
        cases i with
        | true => exact ih _
        | false => trivial
  exact key _ _

theorem option_returns [TlsItem α] [WFItem α] [LawfulItem α] [StreamItem α] (rd : Reader) :
    ((readFrom (α := Option α)).run rd).1.Returns :=
  St.returns_bind (readToEnd_returns rd) fun rest s _ => by
    by_cases h : rest.length = 0
    · rw [if_pos h]; trivial
    · rw [if_neg h]
      refine St.returns_bind ?_ fun _ _ _ => trivial
      rw [St.lift_run]
      exact LawfulItem.read_returns _

theorem obscure_returns (rd : Reader) : ((readFrom (α := ObscureData)).run rd).1.Returns :=
  St.returns_bind (readToEnd_returns rd) fun _ _ _ => trivial

theorem client_hello_returns (rd : Reader) : ((readFrom (α := ClientHello)).run rd).1.Returns :=
  St.returns_bind (lawful_returns rd) fun _ _ _ => St.returns_bind (lawful_returns _) fun _ _ _ => St.returns_bind (lawful_returns _) fun _ _ _ =>
    St.returns_bind (lawful_returns _) fun _ _ _ => St.returns_bind (lawful_returns _) fun _ _ _ => St.returns_bind (option_returns _) fun _ _ _ =>
      trivial

theorem server_hello_returns (rd : Reader) : ((readFrom (α := ServerHello)).run rd).1.Returns :=
  St.returns_bind (lawful_returns rd) fun _ _ _ => St.returns_bind (lawful_returns _) fun _ _ _ => St.returns_bind (lawful_returns _) fun _ _ _ =>
    St.returns_bind (lawful_returns _) fun _ _ _ => St.returns_bind (lawful_returns _) fun _ _ _ => St.returns_bind (option_returns _) fun _ _ _ =>
      trivial

theorem arm_returns (ty : Nat) (rd : Reader) : ((Handshake.readArmFrom ty).run rd).1.Returns := by
  have body : ∀ {α : Type} [TlsItem α] [StreamItem α] (mk : α → Handshake), (∀ rd, ((readFrom (α := α)).run rd).1.Returns) →
      ((Handshake.readBodyFrom α mk).run rd).1.Returns := fun mk h => St.returns_bind (h rd) fun _ _ _ => trivial
  unfold Handshake.readArmFrom
  repeat' split
  all_goals first
    | exact body _ client_hello_returns
    | exact body _ server_hello_returns
    | exact body _ obscure_returns
    | exact body _ lawful_returns
    | trivial

theorem end_returns (h : Handshake) (rd : Reader) : ((Handshake.checkEndFrom h).run rd).1.Returns := by
  unfold Handshake.checkEndFrom
  dsimp only
  split <;> trivial

theorem num_returns {k : Nat} (hk : StreamItem.Width k) (rd : Reader) : ((StreamItem.readNum k).run rd).1.Returns := by
  obtain ⟨c, tail, ht, hs⟩ := split rd.stream
  obtain ⟨rd', h1, _⟩ := StreamItem.sim_num hk rd c tail (ht.imp_right fun h => ⟨rfl, h⟩) hs
  rw [h1]
  exact Item.readNum_returns _ _

theorem handshake_returns (rd : Reader) : ((readFrom (α := Handshake)).run rd).1.Returns :=
  St.returns_bind (num_returns (.inl rfl) rd) fun _ _ _ => St.returns_bind (num_returns (.inr (.inr (.inl rfl))) _) fun _ _ _ =>
    St.returns_bind (arm_returns _ _) fun _ _ _ => end_returns _ _

/-- Reads that leave a broken transport broken. -/
def KeepsBreak (x : St Reader α) : Prop := ∀ (rd rd' : Reader) (a : α), rd.Breaks → x.run rd = (.ok a, rd') → rd'.Breaks

theorem KeepsBreak.pure (a : α) : KeepsBreak (Pure.pure a : St Reader α) := by
  intro rd rd' b h e; cases e; exact h

theorem KeepsBreak.lift (x : Res α) : KeepsBreak (St.lift x : St Reader α) := by
  intro rd rd' b h e
  rw [St.lift_run] at e
  cases e
  exact h

theorem KeepsBreak.bind {x : St Reader α} {f : α → St Reader β} (hx : KeepsBreak x) (hf : ∀ a, KeepsBreak (f a)) : KeepsBreak (x >>= f) := by
  intro rd rd' b h e
  rcases e1 : x.run rd with ⟨r, s⟩
  cases r with
  | ok a => rw [St.bind_of_ok e1] at e; exact hf a _ _ _ (hx _ _ _ h e1) e
  | err k => rw [St.bind_of_err e1] at e; cases e
  | panic => rw [St.bind_run, e1] at e; cases e
  | diverge => rw [St.bind_run, e1] at e; cases e

theorem KeepsBreak.ite {c : Prop} [Decidable c] {x y : St Reader α} (hx : KeepsBreak x) (hy : KeepsBreak y) : KeepsBreak (if c then x else y) := by
  split <;> assumption

theorem breaks_read {n : Nat} : KeepsBreak (Reader.read n) := by
  rintro ⟨script⟩ rd' a ⟨pre, post, rfl, hp⟩ e
  cases pre with
  | nil => cases e
  | cons v pre =>
    have hp' : ∀ e ∈ pre, e ≠ .fail false ∧ e ≠ .data [] := fun e he => hp e (List.mem_cons_of_mem _ he)
    cases v with
    | fail i => cases e
    | data b =>
      have e : (Res.ok (b.take n), (⟨if b.length ≤ n then pre ++ .fail false :: post else .data (b.drop n) :: (pre ++ .fail false :: post)⟩ : Reader)) = (.ok a, rd') := e
      cases e
      by_cases hb : b.length ≤ n
      · rw [if_pos hb]
        exact ⟨pre, post, rfl, hp'⟩
      · rw [if_neg hb]
        refine ⟨.data (b.drop n) :: pre, post, rfl, ?_⟩
        intro e he
        rcases List.mem_cons.mp he with rfl | he
        · refine ⟨by simp, ?_⟩
          intro h
          have := congrArg (fun e => match e with | Ev.data b => b.length | _ => 0) h
          simp at this
          omega
        · exact hp' e he

theorem breaks_fill : ∀ (fuel need : Nat) (acc : Bytes), KeepsBreak (Reader.fillLoop fuel need acc)
  | 0, need, acc => by
    rw [Reader.fillLoop]
    exact .ite (.pure _) (.lift _)
  | fuel + 1, need, acc => by
    rw [Reader.fillLoop]
    exact .ite (.pure _) (.bind breaks_read fun b => .ite (.lift _) (breaks_fill fuel _ _))

theorem breaks_exact (n : Nat) : KeepsBreak (Reader.readExact n) := breaks_fill n n []
theorem breaks_u8 : KeepsBreak Reader.readU8 := .bind (breaks_exact 1) fun _ => .pure _

theorem breaks_num (k : Nat) : KeepsBreak (StreamItem.readNum k) := by
  unfold StreamItem.readNum
  split
  · exact .bind breaks_u8 fun _ => .pure _
  · exact .bind (.bind (breaks_exact 2) fun _ => .pure _) fun _ => .pure _
  · exact .bind breaks_u8 fun _ => .bind breaks_u8 fun _ => .bind breaks_u8 fun _ => .pure _
  · exact .bind (.bind (breaks_exact 4) fun _ => .pure _) fun _ => .pure _
  · exact .bind (.bind (breaks_exact 8) fun _ => .pure _) fun _ => .pure _

theorem breaks_enum [TlsEnum α] : KeepsBreak (readFrom (α := α)) :=
  .bind (breaks_num _) fun n => by
    cases (TlsEnum.ofCode n : Option α) with
    | some a => exact .pure _
    | none => exact .lift _

theorem breaks_byte : KeepsBreak (readFrom (α := UInt8)) := .bind (breaks_num 1) fun _ => .pure _
theorem breaks_array (n : Nat) : KeepsBreak (readFrom (α := TlsArray n)) := .bind (breaks_exact n) fun _ => .pure _
theorem breaks_suite : KeepsBreak (readFrom (α := CipherSuite)) := .bind breaks_u8 fun _ => .bind breaks_u8 fun _ => .ite (.pure _) (.pure _)
theorem breaks_version : KeepsBreak (readFrom (α := ProtocolVersion)) := .bind breaks_byte fun _ => .bind breaks_byte fun _ => .pure _

theorem breaks_items [TlsItem α] [StreamItem α] (h : KeepsBreak (readFrom (α := α))) (size : Nat) : ∀ (fuel n : Nat) (acc : List α), KeepsBreak (TlsVec.readItemsFrom size fuel n acc)
  | 0, n, acc => by
    rw [TlsVec.readItemsFrom]
    exact .ite (.lift _) (.ite (.lift _) (.pure _))
  | fuel + 1, n, acc => by
    rw [TlsVec.readItemsFrom]
    exact .ite (.bind h fun _ => breaks_items h size fuel _ _) (.ite (.lift _) (.pure _))

theorem breaks_vec [TlsItem α] [StreamItem α] (h : KeepsBreak (readFrom (α := α))) {min max : Nat} : KeepsBreak (readFrom (α := TlsVec α min max)) :=
  .bind (breaks_num _) fun _ => .bind (breaks_items h _ _ _ _) fun _ => .lift _

/-- Reads that do not succeed on a broken transport. -/
def NoValue (x : St Reader α) : Prop := ∀ (rd rd' : Reader) (a : α), rd.Breaks → x.run rd ≠ (.ok a, rd')

theorem NoValue.first {x : St Reader α} {f : α → St Reader β} (hx : NoValue x) : NoValue (x >>= f) := by
  intro rd rd' b h e
  rcases e1 : x.run rd with ⟨r, s⟩
  cases r with
  | ok a => exact hx _ _ _ h e1
  | err k => rw [St.bind_of_err e1] at e; cases e
  | panic => rw [St.bind_run, e1] at e; cases e
  | diverge => rw [St.bind_run, e1] at e; cases e

theorem NoValue.next {x : St Reader α} {f : α → St Reader β} (hx : KeepsBreak x) (hf : ∀ a, NoValue (f a)) : NoValue (x >>= f) := by
  intro rd rd' b h e
  rcases e1 : x.run rd with ⟨r, s⟩
  cases r with
  | ok a => rw [St.bind_of_ok e1] at e; exact hf a _ _ _ (hx _ _ _ h e1) e
  | err k => rw [St.bind_of_err e1] at e; cases e
  | panic => rw [St.bind_run, e1] at e; cases e
  | diverge => rw [St.bind_run, e1] at e; cases e

theorem NoValue.toEnd : NoValue Reader.readToEnd := by
  rintro ⟨script⟩ rd' a ⟨pre, post, rfl, hp⟩ e
  have key : ∀ (pre : List Ev) (acc : Bytes), (∀ e ∈ pre, e ≠ .fail false ∧ e ≠ .data []) → (Reader.readToEndLoop (pre ++ .fail false :: post) acc).1 = .err .IoFailure := by
    intro pre
    induction pre with
    | nil => intro acc _; rfl
    | cons v pre ih =>
      intro acc hp
      have hp' : ∀ e ∈ pre, e ≠ .fail false ∧ e ≠ .data [] := fun e he => hp e (List.mem_cons_of_mem _ he)
      cases v with
      | data b =>
        have hb : b ≠ [] := fun h => (hp _ List.mem_cons_self).2 (by rw [h])
        rw [List.cons_append, Reader.readToEndLoop, if_neg (by simpa using hb)]
        exact ih _ hp'
      | fail i =>
        cases i with
        | true => exact ih _ hp'
        | false => exact absurd rfl (hp _ List.mem_cons_self).1
  have := key pre [] hp
  rw [show Reader.readToEndLoop (pre ++ .fail false :: post) [] = (.ok a, rd') from e] at this
  cases this

theorem NoValue.obscure : NoValue (readFrom (α := ObscureData)) := .first .toEnd
theorem NoValue.option [TlsItem α] [StreamItem α] : NoValue (readFrom (α := Option α)) := .first .toEnd

theorem NoValue.clientHello : NoValue (readFrom (α := ClientHello)) :=
  .next breaks_version fun _ => .next (breaks_array _) fun _ => .next (breaks_vec breaks_byte) fun _ => .next (breaks_vec breaks_suite) fun _ =>
    .next (breaks_vec breaks_enum) fun _ => .first .option

theorem NoValue.serverHello : NoValue (readFrom (α := ServerHello)) :=
  .next breaks_version fun _ => .next (breaks_array _) fun _ => .next (breaks_vec breaks_byte) fun _ => .next breaks_suite fun _ =>
    .next breaks_enum fun _ => .first .option

theorem run_ok_parts {x : St Reader α} {f : α → St Reader β} {rd rd' : Reader} {b : β} (e : (x >>= f).run rd = (.ok b, rd')) :
    ∃ a s, x.run rd = (.ok a, s) ∧ (f a).run s = (.ok b, rd') := by
  rcases e1 : x.run rd with ⟨r, s⟩
  cases r with
  | ok a => rw [St.bind_of_ok e1] at e; exact ⟨a, s, rfl, e⟩
  | err k => rw [St.bind_of_err e1] at e; cases e
  | panic => rw [St.bind_run, e1] at e; cases e
  | diverge => rw [St.bind_run, e1] at e; cases e

theorem NoValue.item [StreamItem α] (h : NoValue (readFrom (α := α))) : NotFromBroken α := by
  intro rd x hb e
  exact h rd _ x hb (Prod.ext e rfl)

end Streaming

open Streaming

/-- C90: items of known length, alone or followed by others. -/
theorem C90_items : DecodesFromTransport UInt8 ∧ DecodesFromTransport AlertLevel ∧ DecodesFromTransport AlertDescription ∧
    DecodesFromTransport HashAlgorithm ∧ DecodesFromTransport SignatureAlgorithm ∧ DecodesFromTransport CompressionMethod ∧
    DecodesFromTransport NamedCurve ∧ DecodesFromTransport ECPointFormat ∧ DecodesFromTransport ClientCertificateType ∧
    DecodesFromTransport CipherSuite ∧ DecodesFromTransport ProtocolVersion ∧ DecodesFromTransport Random ∧ DecodesFromTransport SessionId ∧
    DecodesFromTransport DummyItem ∧ DecodesFromTransport Alert ∧ DecodesFromTransport SignatureAndHashAlgorithm ∧
    DecodesFromTransport DigitallySigned ∧ DecodesFromTransport Extension ∧ DecodesFromTransport ExtensionVec ∧
    DecodesFromTransport CertificateList ∧ DecodesFromTransport CertificateRequest ∧ DecodesFromTransport EcParameters ∧
    DecodesFromTransport ServerEcdhParams ∧ DecodesFromTransport EcdheServerKeyExchange :=
  ⟨decodes_of_sim, decodes_of_sim, decodes_of_sim, decodes_of_sim, decodes_of_sim, decodes_of_sim, decodes_of_sim, decodes_of_sim, decodes_of_sim,
    decodes_of_sim, decodes_of_sim, decodes_of_sim, decodes_of_sim, decodes_of_sim, decodes_of_sim, decodes_of_sim, decodes_of_sim, decodes_of_sim,
    decodes_of_sim, decodes_of_sim, decodes_of_sim, decodes_of_sim, decodes_of_sim, decodes_of_sim⟩

/-- C90: items that extend to the end of the input. -/
theorem C90_messages : DecodesToEnd (Option ExtensionVec) ∧ DecodesToEnd ObscureData ∧ DecodesToEnd ClientHello ∧ DecodesToEnd ServerHello ∧
    DecodesToEnd Handshake := ⟨ends_of_sim, ends_of_sim, ends_of_sim, ends_of_sim, ends_of_sim⟩

/-- C90: an item that extends to the end of the input is not taken for complete when the transport breaks. -/
theorem C90_broken : NotFromBroken (Option ExtensionVec) ∧ NotFromBroken ObscureData ∧ NotFromBroken ClientHello ∧ NotFromBroken ServerHello :=
  ⟨NoValue.option.item, NoValue.obscure.item, NoValue.clientHello.item, NoValue.serverHello.item⟩

/-- C90: nor is a message with such a body. -/
theorem C90_broken_message (rd : Reader) (h : Handshake) (hb : rd.Breaks) (hr : ((readFrom (α := Handshake)).run rd).1 = .ok h) : Closed h := by
  have arm : ∀ (ty : Nat) (rd rd' : Reader) (h : Handshake), rd.Breaks → (Handshake.readArmFrom ty).run rd = (.ok h, rd') → Closed h := by
    intro ty rd rd' h hb e
    have body : ∀ {α : Type} [StreamItem α] {mk : α → Handshake}, (Handshake.readBodyFrom α mk).run rd = (.ok h, rd') →
        ∃ b s, (readFrom (α := α)).run rd = (.ok b, s) ∧ h = mk b := by
      intro α _ mk e
      rcases e1 : (readFrom (α := α)).run rd with ⟨r, s⟩
      rw [Handshake.readBodyFrom] at e
      cases r with
      | ok a => rw [St.bind_of_ok e1] at e; cases e; exact ⟨a, _, rfl, rfl⟩
      | err k => rw [St.bind_of_err e1] at e; cases e
      | panic => rw [St.bind_run, e1] at e; cases e
      | diverge => rw [St.bind_run, e1] at e; cases e
    unfold Handshake.readArmFrom at e
    repeat' split at e
    all_goals first
      | (obtain ⟨b, s, h1, rfl⟩ := body e; first | exact absurd h1 (NoValue.clientHello _ _ _ hb) | exact absurd h1 (NoValue.serverHello _ _ _ hb) | exact absurd h1 (NoValue.obscure _ _ _ hb) | trivial)
      | cases e
  have hr' : (readFrom (α := Handshake)).run rd = (.ok h, ((readFrom (α := Handshake)).run rd).2) := Prod.ext hr rfl
  revert hr'
  generalize ((readFrom (α := Handshake)).run rd).2 = rd'
  intro e
  obtain ⟨ty, s1, e1, e⟩ := run_ok_parts e
  obtain ⟨n, s2, e2, e⟩ := run_ok_parts e
  obtain ⟨h', s3, e3, e⟩ := run_ok_parts e
  have hc := arm ty s2 s3 h' (breaks_num _ _ _ _ (breaks_num _ _ _ _ hb e1) e2) e3
  have : h' = h := by
    unfold Handshake.checkEndFrom at e
    dsimp only at e
    split at e <;> cases e
    rfl
  exact this ▸ hc

/-- C90: the pieces in which the bytes arrive make no difference. -/
theorem C90_chunking (rd rd' : Reader) (b : Bytes) (h : rd.stream = ofBytes b) (h' : rd'.stream = ofBytes b) :
    ((readFrom (α := Handshake)).run rd).1 = ((readFrom (α := Handshake)).run rd').1 := by
  obtain ⟨_, h1, _⟩ := ends_of_sim (α := Handshake) rd b h
  obtain ⟨_, h2, _⟩ := ends_of_sim (α := Handshake) rd' b h'
  rw [h1, h2]

/-- C90: on every transport, failing or not, decoding a message returns. -/
theorem C90_total (rd : Reader) : ((readFrom (α := Handshake)).run rd).1.Returns ∧ ((readFrom (α := EcdheServerKeyExchange)).run rd).1.Returns ∧
    ((readFrom (α := Alert)).run rd).1.Returns := ⟨handshake_returns rd, lawful_returns rd, lawful_returns rd⟩

/-- C90: a message in the format of the RFCs, arriving in any pieces, is read as that message. -/
theorem C90_handshake (h : Handshake) (hb : Wire.InBounds h) (hs : ∀ s ∈ suitesOf h, s ≠ .UnknownCipherSuite)
    (hn : ∀ e ∈ extensionsOf h, NotShadowed e) (rd : Reader) (hr : rd.stream = ofBytes (Wire.handshake h)) :
    ((readFrom (α := Handshake)).run rd).1 = .ok h := by
  obtain ⟨rd', h1, _⟩ := ends_of_sim (α := Handshake) rd _ hr
  rw [h1, C89_read h hb hs hn]

/-- C90: an alert, arriving in any pieces and followed by anything, is read as that alert and what follows stays. -/
theorem C90_alert (a : Alert) (rd : Reader) (l : List Sym) (hr : rd.stream = ofBytes (Wire.alert a) ++ l) :
    ∃ rd', (readFrom (α := Alert)).run rd = (.ok a, rd') ∧ rd'.stream = l :=
  read_exact (fun rest => (C89_alert a rest).2) rd l hr

/-- C90: the same for the body of a ServerKeyExchange. -/
theorem C90_key_exchange (k : EcdheServerKeyExchange) (h1 : 1 ≤ k.params.pub.items.length) (h2 : k.params.pub.items.length ≤ 255)
    (h3 : k.signed_params.signature.items.length ≤ 65535) (rd : Reader) (l : List Sym) (hr : rd.stream = ofBytes (Wire.keyExchange k) ++ l) :
    ∃ rd', (readFrom (α := EcdheServerKeyExchange)).run rd = (.ok k, rd') ∧ rd'.stream = l :=
  read_exact (fun rest => (C89_key_exchange k rest h1 h2 h3).2) rd l hr

/-- C90: two messages cannot be read one after the other from a transport: reading the first (here of a kind whose length is known) takes the first
byte of the second and fails. -/
theorem C90_one_message_only (h : Handshake) (b : Bytes) (hb : BuiltHandshake h) (hc : Closed h) (hw : TlsItem.write h = .ok b) (more : Bytes)
    (hm : more ≠ []) (rd : Reader) (hr : rd.stream = ofBytes (b ++ more)) : ((readFrom (α := Handshake)).run rd).1 = .err .InternalError := by
  obtain ⟨rd', h1, _⟩ := ends_of_sim (α := Handshake) rd _ hr
  rw [h1, C04_trailing_rejected h b more hb hw hm hc]

/-- C91, what holds of writing any item to a transport. Missing: that nothing is sent of an item that cannot be written, which is false
(`C91_half_written`). -/
theorem C91_items_partial : WritesToTransport UInt8 ∧ WritesToTransport AlertLevel ∧ WritesToTransport AlertDescription ∧
    WritesToTransport HashAlgorithm ∧ WritesToTransport SignatureAlgorithm ∧ WritesToTransport CompressionMethod ∧
    WritesToTransport NamedCurve ∧ WritesToTransport ECPointFormat ∧ WritesToTransport ClientCertificateType ∧
    WritesToTransport CipherSuite ∧ WritesToTransport ProtocolVersion ∧ WritesToTransport Random ∧ WritesToTransport SessionId ∧
    WritesToTransport DummyItem ∧ WritesToTransport Alert ∧ WritesToTransport SignatureAndHashAlgorithm ∧
    WritesToTransport DigitallySigned ∧ WritesToTransport Extension ∧ WritesToTransport ExtensionVec ∧
    WritesToTransport CertificateList ∧ WritesToTransport CertificateRequest ∧ WritesToTransport EcParameters ∧
    WritesToTransport ServerEcdhParams ∧ WritesToTransport EcdheServerKeyExchange ∧ WritesToTransport (Option ExtensionVec) ∧
    WritesToTransport ObscureData ∧ WritesToTransport ClientHello ∧ WritesToTransport ServerHello ∧ WritesToTransport Handshake :=
  ⟨writes_of_sim, writes_of_sim, writes_of_sim, writes_of_sim, writes_of_sim, writes_of_sim, writes_of_sim, writes_of_sim, writes_of_sim,
    writes_of_sim, writes_of_sim, writes_of_sim, writes_of_sim, writes_of_sim, writes_of_sim, writes_of_sim, writes_of_sim, writes_of_sim,
    writes_of_sim, writes_of_sim, writes_of_sim, writes_of_sim, writes_of_sim, writes_of_sim, writes_of_sim, writes_of_sim, writes_of_sim,
    writes_of_sim, writes_of_sim⟩

/-- C91: a message within bounds goes out in the format of the RFCs; if the transport fails, some of its first bytes went out and the error is
reported. -/
theorem C91_handshake (h : Handshake) (hb : Wire.InBounds h) (hs : ∀ s ∈ suitesOf h, s ≠ .UnknownCipherSuite) (w : Writer) :
    ∃ w', ((writeTo h).run w = (.ok (), w') ∧ w'.wire = w.wire ++ Wire.handshake h) ∨
      ((writeTo h).run w = (.err .IoFailure, w') ∧ w.faults ≠ [] ∧ ∃ sent, w'.wire = w.wire ++ sent ∧ sent <+: Wire.handshake h) := by
  obtain ⟨res, sent, w', h1, h2, h3, h4, h5, h6⟩ := writes_of_sim h w
  have hw := C89_written h hb hs
  refine ⟨w', ?_⟩
  rcases h3 with ⟨u, rfl⟩ | ⟨k, rfl⟩
  · refine .inl ⟨h1, ?_⟩
    have := h4 u rfl
    rw [hw] at this
    rw [h2, Res.ok.inj this]
  · rcases h5 k rfl with h | ⟨rfl, h⟩
    · rw [hw] at h; cases h
    · refine .inr ⟨h1, fun hf => ?_, sent, h2, h _ hw⟩
      have := h6 hf _ hw
      cases this

/-- C91: what is written to one end of a transport is read at the other, however the bytes are cut up. -/
theorem C91_transfer (h : Handshake) (hb : Wire.InBounds h) (hs : ∀ s ∈ suitesOf h, s ≠ .UnknownCipherSuite)
    (hn : ∀ e ∈ extensionsOf h, NotShadowed e) (w w' : Writer) (u : Unit) (hw : (writeTo h).run w = (.ok u, w')) (h0 : w.wire = [])
    (rd : Reader) (hr : rd.stream = ofBytes w'.wire) : ((readFrom (α := Handshake)).run rd).1 = .ok h := by
  refine C90_handshake h hb hs hn rd ?_
  obtain ⟨w2, ⟨h1, h2⟩ | ⟨h1, _⟩⟩ := C91_handshake h hb hs w
  · rw [h1] at hw
    cases hw
    rw [hr, h2, h0, List.nil_append]
  · rw [h1] at hw; cases hw

/-- A hello that names a cipher suite the crate cannot write. -/
def unwritable : ServerHello where
  serverVersion := ⟨3, 3⟩
  random := ⟨List.replicate 32 7⟩
  sessionId := ⟨[1, 2]⟩
  cipherSuite := .UnknownCipherSuite
  compressionMethod := .null
  extensions := none

/-- C91: when an item cannot be written, part of it has gone out before the error: here the header and 37 bytes of a 44-byte message. -/
theorem C91_half_written : (writeTo (Handshake.server_hello unwritable)).run {} =
    (.err .UnexpectedMessage, { wire := [2, 0, 0, 40, 3, 3] ++ List.replicate 32 7 ++ [2, 1, 2], faults := [] }) := by decide +kernel

/-- A transport that breaks behind the hello of C01, and one that breaks behind a ServerHelloDone. -/
example : (⟨[.data (Wire.handshake sampleHello), .fail true, .fail false]⟩ : Reader).Breaks := ⟨[.data (Wire.handshake sampleHello), .fail true], [], rfl, by decide +kernel⟩
example : (⟨[.data [14], .data [0, 0, 0], .fail false]⟩ : Reader).Breaks ∧ ((readFrom (α := Handshake)).run ⟨[.data [14], .data [0, 0, 0], .fail false]⟩).1 = .ok (.server_hello_done ⟨⟩) :=
  ⟨⟨[.data [14], .data [0, 0, 0]], [], rfl, by decide⟩, by decide +kernel⟩

/-- The hello of C01 in pieces, with the transport ending after it. -/
def choppedHello : Reader := ⟨(Wire.handshake sampleHello).map fun x => .data [x]⟩

example : choppedHello.stream = ofBytes (Wire.handshake sampleHello) ∧ ((readFrom (α := Handshake)).run choppedHello).1 = .ok sampleHello := by
  decide +kernel

/-- An alert, a failure of the transport, and more. -/
example : (readFrom (α := Alert)).run ⟨[.data [1], .data [0, 9], .fail false, .data [3]]⟩ = (.ok ⟨.warning, .close_notify⟩, ⟨[.data [9], .fail false, .data [3]]⟩) := by
  decide +kernel
example : (readFrom (α := Alert)).run ⟨[.data [1], .fail false, .data [3]]⟩ = (.err .IoFailure, ⟨[.data [3]]⟩) := by decide +kernel

/-- A transport that fails at the third call. -/
example : (writeTo (Handshake.hello_request ⟨⟩)).run { faults := [none, none, some 0] } = (.err .IoFailure, { wire := [0, 0], faults := [] }) := by
  decide +kernel

/-- A hello without extensions. -/
def bareHello : Handshake := .server_hello { unwritable with cipherSuite := .TLS_ECDHE_RSA_WITH_CHACHA20_POLY1305_SHA256 }

/-- It needs the end of the transport: with a failure there instead, it is refused although all of it had arrived. -/
example : ((readFrom (α := Handshake)).run ⟨[.data (Wire.handshake bareHello)]⟩).1 = .ok bareHello ∧
    ((readFrom (α := Handshake)).run ⟨[.data (Wire.handshake bareHello), .fail false]⟩).1 = .err .IoFailure := by decide +kernel

end Husk
