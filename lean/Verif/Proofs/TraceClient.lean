import Verif.Model.TraceClient
import Verif.Proofs.TraceTlsSame
import Verif.Proofs.HandshakeRun
/-! The computations with observations of `Verif/Model/TraceClient` have the results of the model, and show only lengths. -/

namespace Husk

open TSt Tr
open Int256 (SameLen)
open Spec

/-! ### The same results -/

namespace TlsClient

theorem masterSecretT_res (m : Mode) (p c s : Bytes) : (masterSecretT m p c s).res = masterSecret m p c s := by
  simp only [masterSecretT, masterSecret, bind_res, see_res, Res.bind_ok, Prf.newT_res, Prf.getBytesT_res, pure_res]
  rfl

theorem verifyDataT_res (m : Mode) (a b c : Bytes) : (verifyDataT m a b c).res = verifyData m a b c := by
  simp only [verifyDataT, verifyData, bind_res, see_res, Res.bind_ok, Prf.newT_res, Prf.getBytesT_res, Sha2.sha256T_res, pure_res]
  rfl

theorem checkFinishedT_res (m : Mode) (master msgs : Bytes) (f : Handshake) (v : VerifyData) : (checkFinishedT m master msgs f v).res = checkFinished m master msgs f v := by
  simp only [checkFinishedT, checkFinished, bind_res, see_res, Res.bind_ok, verifyDataT_res, Util.cryptoCompareT_res, test_res, ite_res, pure_res, lift_res]
  rfl

theorem expandT_res (m : Mode) (master cr sr : Bytes) (hm : master.length ≤ 64) (hc : cr.length = 32) (hs : sr.length = 32) :
    (expandT m master cr sr).res = .ok ((keysOf master cr sr).clientKey, (keysOf master cr sr).serverKey, (keysOf master cr sr).clientIv, (keysOf master cr sr).serverIv) := by
  obtain ⟨p0, p1, p2, p3, p4, e0, e1, e2, e3, e4, _⟩ := expand_eq m master cr sr hm hc hs
  simp only [expandT, bind_res, see_res, Res.bind_ok, Prf.newT_res, Prf.getBytesT_res, e0, e1, e2, e3, e4, pure_res, Aead.KEY_LEN]

/-- The state of the client after the key change. -/
noncomputable def withKeys (m : Mode) (k : Keys) (c : TlsClient) : TlsClient :=
  { c with
    writer := { c.writer with encryptor := some (.chacha m k.clientKey), writeCount := 0, iv := some k.clientIv }
    reader := { c.reader with iv := some k.serverIv } }

theorem installKeysT_run (m : Mode) (master cr sr : Bytes) (hm : master.length ≤ 64) (hc : cr.length = 32) (hs : sr.length = 32) (c : TlsClient)
    (h1 : c.writer.encryptor = none) (h2 : c.writer.iv = none) (h3 : c.reader.iv = none) :
    (installKeysT m master cr sr).run c = ((expandT m master cr sr).trace, .ok ((keysOf master cr sr).clientKey, (keysOf master cr sr).serverKey), withKeys m (keysOf master cr sr) c) := by
  have e : (TSt.ofTr (expandT m master cr sr) : TSt TlsClient _).run c = ((expandT m master cr sr).trace,
      .ok ((keysOf master cr sr).clientKey, (keysOf master cr sr).serverKey, (keysOf master cr sr).clientIv, (keysOf master cr sr).serverIv), c) := by
    rw [← expandT_res m master cr sr hm hc hs]; rfl
  rw [installKeysT, TSt.bind_of_ok e]
  dsimp only
  rw [TSt.bind_of_ok (t := []) (a := ()) (s' := { c with writer := { c.writer with encryptor := some (.chacha m (keysOf master cr sr).clientKey), writeCount := 0 } })
      (by simp only [TSt.quiet, onWriter, St.zoom_run, TlsWriter.setEncryptor, h1]),
    TSt.bind_of_ok (t := []) (a := ()) (s' := { c with writer := { c.writer with encryptor := some (.chacha m (keysOf master cr sr).clientKey), writeCount := 0, iv := some (keysOf master cr sr).clientIv } })
      (by simp only [TSt.quiet, onWriter, St.zoom_run, TlsWriter.setIv, h2]),
    TSt.bind_of_ok (t := []) (a := ()) (s' := withKeys m (keysOf master cr sr) c) (by simp only [TSt.quiet, onReader, St.zoom_run, TlsReader.setIv, h3]; rfl)]
  simp only [List.nil_append]
  show ((expandT m master cr sr).trace ++ [], _) = _
  rw [List.append_nil]
  rfl

end TlsClient

/-! ### Writing before the key change -/

/-- Two writers without keys, with the same record number and the same fate of the coming writes. -/
structure TlsWriter.ClearTwin (s s' : TlsWriter) : Prop where
  key : s.encryptor = none
  key' : s'.encryptor = none
  iv : s.iv = none
  iv' : s'.iv = none
  count : s.writeCount = s'.writeCount
  writer : Writer.Twin s.writer s'.writer

namespace TlsWriter

variable {m : Mode}

theorem ioT_clear {R : α → β → Prop} {x : TSt Writer α} {y : TSt Writer β} (h : Alike Writer.Twin R x y) : Alike ClearTwin R (ioT x) (ioT y) :=
  Alike.zoom h (fun _ _ h => h.writer) fun _ _ _ _ h h' => { h with writer := h' }

theorem bump_clear : Alike ClearTwin (fun _ _ => True) (quiet (bump m)) (quiet (bump m)) := Alike.quiet fun s s' h => by
  unfold bump
  dsimp only
  rw [← h.count]
  cases addU64 m s.writeCount 1 with
  | ok n => exact ⟨trivial, { h with count := rfl }⟩
  | err k => exact ⟨rfl, h⟩
  | panic => exact ⟨trivial, h⟩
  | diverge => exact ⟨trivial, h⟩

theorem writeRecordT_clear {r r' : Record} (h : SameRecord r r') : Alike ClearTwin (fun _ _ => True) (writeRecordT m none r) (writeRecordT m none r') := by
  obtain ⟨h1, h2, h3, h4, h5⟩ := h
  refine Alike.bind (R := SameLen) (Alike.bind (Alike.see rfl) fun _ _ _ => Alike.pure h4) fun e e' he => Alike.ite (by rw [show e.length = e'.length from he]) (fun _ => Alike.lift trivial) fun _ => ?_
  rw [h1, h2, h3, show e.length = e'.length from he]
  exact Alike.bind (ioT_clear (Writer.writeAllT_alike rfl)) fun _ _ _ => Alike.bind (ioT_clear (Writer.writeAllT_alike rfl)) fun _ _ _ =>
    Alike.bind (ioT_clear (Writer.writeAllT_alike rfl)) fun _ _ _ => Alike.bind (ioT_clear (Writer.writeAllT_alike rfl)) fun _ _ _ =>
    Alike.bind (ioT_clear (Writer.writeAllT_alike he)) fun _ _ _ => bump_clear

theorem writeChunksT_clear (ty : ContentType) (cs cs' : List Bytes) (h : cs.map List.length = cs'.map List.length) :
    Alike ClearTwin (fun _ _ => True) (writeChunksT m none ty cs) (writeChunksT m none ty cs') := by
  induction cs generalizing cs' with
  | nil =>
    have e : cs' = [] := List.map_eq_nil_iff.mp h.symm
    subst e
    exact Alike.bind (Alike.see rfl) fun _ _ _ => Alike.pure trivial
  | cons c cs ih =>
    cases cs' with
    | nil => cases h
    | cons c' cs' =>
      rw [List.map_cons, List.map_cons, List.cons.injEq] at h
      exact Alike.bind (Alike.see rfl) fun _ _ _ => Alike.bind (Alike.see (congrArg _ h.1)) fun _ _ _ => Alike.bind (newT_alike ty _ _ h.1) fun _ _ hr =>
        Alike.bind (writeRecordT_clear hr) fun _ _ _ => ih cs' h.2

/-- Messages whose serialisations have the same length. -/
def SameMsg (x y : Handshake) : Prop := ∃ b b' : Bytes, TlsItem.write x = .ok b ∧ TlsItem.write y = .ok b' ∧ b.length = b'.length

theorem writeHandshakeT_clear {x y : Handshake} (h : SameMsg x y) : Alike ClearTwin (fun _ _ => True) (writeHandshakeT m none x) (writeHandshakeT m none y) := by
  obtain ⟨b, b', h1, h2, h3⟩ := h
  refine Alike.bind (R := SameLen) (Alike.lift (by rw [h1, h2]; exact h3)) fun d d' e => Alike.bind (Alike.see (congrArg _ e)) fun _ _ _ => writeChunksT_clear _ _ _ (chunks_lens _ _ _ e)

theorem writeHandshakeT_alike {k k' : Bytes} {x y : Handshake} (h : SameMsg x y) : Alike (Twin m k k') (fun _ _ => True) (writeHandshakeT m (some k) x) (writeHandshakeT m (some k') y) := by
  obtain ⟨b, b', h1, h2, h3⟩ := h
  refine Alike.bind (R := SameLen) (Alike.lift (by rw [h1, h2]; exact h3)) fun d d' e => Alike.bind (Alike.see (congrArg _ e)) fun _ _ _ => writeDataT_alike _ e

theorem writeHandshakeT_agrees {key : Option Bytes} (h : Handshake) : Agrees (HasKey m key) (writeHandshakeT m key h) (writeHandshake m h) :=
  Agrees.bind (Agrees.lift _) fun _ => Agrees.see (writeChunksT_agrees _ _)

end TlsWriter

/-! ### The computations on secrets -/

namespace TlsClient

theorem masterSecretT_same (m : Mode) (p c s p' c' s' : Bytes) (hp : SameLen p p') (hc : SameLen c c') (hs : SameLen s s') :
    Same SameLen (masterSecretT m p c s) (masterSecretT m p' c' s') := by
  have hl : SameLen (masterSecretLabel ++ c ++ s) (masterSecretLabel ++ c' ++ s') := by simp only [SameLen, List.length_append] at *; omega
  exact Same.bind (Same.see_eq (congrArg _ hc)) fun _ _ _ => Same.bind (Same.see_eq (congrArg _ hs)) fun _ _ _ => Same.bind (Prf.newT_same _ _ _ _ _ hp hl) fun _ _ h1 =>
    Same.bind (Prf.getBytesT_same _ _ _ _ h1) fun _ _ h2 => Same.pure h2.1

theorem expandT_same (m : Mode) (p c s p' c' s' : Bytes) (hp : SameLen p p') (hc : SameLen c c') (hs : SameLen s s') :
    Same Same.Any (expandT m p c s) (expandT m p' c' s') := by
  have hl : SameLen (keyExpansionLabel ++ s ++ c) (keyExpansionLabel ++ s' ++ c') := by simp only [SameLen, List.length_append] at *; omega
  exact Same.bind (Same.see_eq (congrArg _ hs)) fun _ _ _ => Same.bind (Same.see_eq (congrArg _ hc)) fun _ _ _ => Same.bind (Same.see_eq (congrArg _ hp)) fun _ _ _ =>
    Same.bind (Prf.newT_same _ _ _ _ _ hp hl) fun _ _ h1 => Same.bind (Prf.getBytesT_same _ _ _ _ h1) fun _ _ h2 => Same.bind (Prf.getBytesT_same _ _ _ _ h2.2) fun _ _ h3 =>
    Same.bind (Prf.getBytesT_same _ _ _ _ h3.2) fun _ _ h4 => Same.bind (Prf.getBytesT_same _ _ _ _ h4.2) fun _ _ _ => Same.pure trivial

theorem verifyDataT_same (m : Mode) (p l g p' l' g' : Bytes) (hp : SameLen p p') (hl : SameLen l l') (hg : SameLen g g') :
    Same SameLen (verifyDataT m p l g) (verifyDataT m p' l' g') :=
  Same.bind (Sha2.sha256T_same _ _ _ hg) fun _ _ h0 => Same.bind (Same.see_eq (congrArg _ h0)) fun _ _ _ => Same.bind (Same.see_eq (congrArg _ hp)) fun _ _ _ =>
    Same.bind (Prf.newT_same _ _ _ _ _ hp (by simp only [SameLen, List.length_append] at *; omega)) fun _ _ h1 => Same.bind (Prf.getBytesT_same _ _ _ _ h1) fun _ _ h2 => Same.pure h2.1

end TlsClient

end Husk
