import Verif.Spec.Extensions
import Verif.Props.Integrity
import Verif.Props.TreeChecks
import Verif.Props.Codec
/-
Properties C74 (the contents of the extensions are those of RFC 9420) and C75 (members meet what the group requires).
-/
namespace Rmls
open Spec Spec.Enc RatchetTree

/-! ## C74 -/

theorem codec_content {c : Codec} (hc : c ∈ wireCodecs) {x : c.α} (hp : c.pre x) (hw : c.wf x) (hf : (c.enc x).fits) :
    c.write x = .ok (c.enc x).bytes ∧ c.read (c.enc x).bytes = .ok (x, []) := by
  have h : c.write x = .ok (c.enc x).bytes := by
    obtain ⟨b, hb⟩ := (C08_succeeds_iff_partial c hc x hp).2 hf
    rw [hb, C04_rfc_bytes_partial c hc x b hp hb]
  refine ⟨h, ?_⟩
  have := C02_round_trip c hc x _ [] hw h
  rwa [List.append_nil] at this

/-- C74 for four of the five extensions: what the code writes is the content that RFC 9420 gives the extension, and it reads
the content back.  Missing: external senders, see `C74_external_senders_refuted`. -/
theorem C74_contents_partial :
    (∀ id, (opq id).fits → ApplicationIdExtension.serialize id = .ok (opq id).bytes ∧
      ApplicationIdExtension.deserialize (opq id).bytes = .ok (id, [])) ∧
    (∀ key, (opq key).fits → ExternalPubExtension.serialize key = .ok (opq key).bytes ∧
      ExternalPubExtension.deserialize (opq key).bytes = .ok (key, [])) ∧
    (∀ req : RequiredCapabilitiesExtension, req.WF → (requiredCapabilities req).fits →
      req.serialize = .ok (requiredCapabilities req).bytes ∧
      RequiredCapabilitiesExtension.deserialize (requiredCapabilities req).bytes = .ok (req, [])) ∧
    (∀ t : RatchetTree, t.NodesWF → (ratchetTree t).fits → RatchetTree.serialize t = .ok (ratchetTree t).bytes ∧
      ∃ t', RatchetTree.deserialize (ratchetTree t).bytes = .ok (t', []) ∧ ∀ i : Nat, t'[i]?.join = t[i]?.join) := by
  refine ⟨fun id hf => ?_, fun key hf => ?_, fun req hw hf => ?_, fun t hw hf => ?_⟩
  · exact codec_content (c := ⟨"ApplicationIdExtension", _, ApplicationIdExtension.deserialize,
      ApplicationIdExtension.serialize, fun _ => True, fun _ => True, opq⟩) (by simp [wireCodecs]) trivial trivial hf
  · exact codec_content (c := ⟨"ExternalPubExtension", _, ExternalPubExtension.deserialize,
      ExternalPubExtension.serialize, fun _ => True, fun _ => True, opq⟩) (by simp [wireCodecs]) trivial trivial hf
  · exact codec_content (c := ⟨"RequiredCapabilitiesExtension", _, RequiredCapabilitiesExtension.deserialize,
      RequiredCapabilitiesExtension.serialize, RequiredCapabilitiesExtension.WF, fun _ => True, requiredCapabilities⟩)
      (by simp [wireCodecs]) trivial hw hf
  · have h : RatchetTree.serialize t = .ok (ratchetTree t).bytes := by
      rcases ratchetTree_w t with ⟨_, h1⟩ | ⟨hn, _⟩
      · exact h1
      · exact absurd hf hn
    obtain ⟨t', h1, h2, _⟩ := C09_round_trip t _ [] hw h
    rw [List.append_nil] at h1
    exact ⟨h, t', h1, h2⟩

/-- C74 is false for external senders: the content that RFC 9420 gives the extension, whatever the senders, is rejected; and
what the code writes is the content for no list of senders. -/
theorem C74_external_senders_refuted (senders : List ExternalSendersExtension) (hf : (externalSenders senders).fits) :
    ExternalSendersExtension.deserialize (externalSenders senders).bytes = .err .BufferTooSmall ∧
    ∀ x : ExternalSendersExtension, x.serialize ≠ .ok (externalSenders senders).bytes := by
  let body := (senders.foldr (fun x e => seq (externalSender x) e) empty).bytes
  have hb : (externalSenders senders).bytes = (opq body).bytes := rfl
  have hs : SecretKey.serialize body = .ok (opq body).bytes :=
    (codec_content (c := ⟨"SecretKey", _, SecretKey.deserialize, SecretKey.serialize, fun _ => True, fun _ => True, opq⟩)
      (by simp [wireCodecs]) trivial trivial (show (opq body).fits from ⟨trivial, hf.2⟩)).1
  have hd := SecretKey.lawful.rt body _ [] trivial hs
  rw [List.append_nil] at hd
  refine ⟨?_, fun x hx => ?_⟩
  · rw [hb]
    unfold ExternalSendersExtension.deserialize
    show De.bind _ _ _ = _
    unfold De.bind
    rw [hd]
    rfl
  · rw [hb] at hx
    have := ExternalSendersExtension.lawful.rt x _ [] trivial hx
    rw [List.append_nil] at this
    unfold ExternalSendersExtension.deserialize at this
    obtain ⟨k, r, h1, h2⟩ := De.bind_ok_iff.1 this
    cases h1.symm.trans hd
    cases h2

/-- One external sender. -/
example : (externalSenders [⟨[1, 2], .Basic [3]⟩]).fits ∧
    (externalSenders [⟨[1, 2], .Basic [3]⟩]).bytes = [7, 2, 1, 2, 0, 1, 1, 3] ∧
    ExternalSendersExtension.serialize ⟨[1, 2], .Basic [3]⟩ = .ok [2, 1, 2, 0, 1, 1, 3] :=
  ⟨by simp [externalSenders, externalSender, vector, struct, opq, Spec.credential, fits, bytes, digits, header], rfl, rfl⟩

/-! ## C75 -/

/-- The checks do not look at the extensions of the group. -/
theorem C75_blind (P : CryptoProvider) (ctx : GroupContext) (exts : Extensions) :
    (∀ (t : RatchetTree) (now : Int), t.verify_integrity P { ctx with extensions := exts } now =
      t.verify_integrity P ctx now) ∧
    ∀ kp : KeyPackage, kp.verify P { ctx with extensions := exts } = kp.verify P ctx :=
  ⟨fun _ _ => rfl, fun _ => rfl⟩

/-- What the example group requires: an extension and a credential of the kind X.509. -/
def exampleRequired : RequiredCapabilitiesExtension := ⟨[.Unknown 61440], [], [.X509]⟩

set_option maxRecDepth 100000 in
/-- C75 is false: a tree is accepted in a group that requires an extension and a credential type that none of its members
supports. -/
theorem C75_refuted : ∃ t ctx req, verify_integrity toyProvider t ctx 0 = .ok () ∧ Requires ctx req ∧
    (∃ i l, t.get (node 0 i) = some (.Leaf l)) ∧
    ∀ i l, t.get (node 0 i) = some (.Leaf l) → ¬ Meets req l.payload.capabilities ∧
      (∃ ty ∈ req.extension_types, ¬ DefaultExtension ty ∧ ty ∉ l.payload.capabilities.extensions) ∧
      ∃ ty ∈ req.credential_types, ty ∉ l.payload.capabilities.credentials := by
  refine ⟨goodTree, { contextOf goodTree with
    extensions := [⟨.RequiredCapabilities, (requiredCapabilities exampleRequired).bytes⟩] }, exampleRequired, ?_, ?_, ?_, ?_⟩
  · rw [(C75_blind toyProvider (contextOf goodTree) _).1]
    decide +kernel
  · refine ⟨_, List.mem_singleton_self _, rfl, ?_, rfl⟩
    simp [exampleRequired, requiredCapabilities, vector, struct, fits, bytes, digits, extensionType, credentialType]
  · exact ⟨0, _, rfl⟩
  · intro i l h
    have hc : l.payload.capabilities = ⟨[.MLS10], [], [], [], [.Basic]⟩ := by
      unfold node at h
      match i, h with
      | 0, h => cases h; rfl
      | 1, h => cases h; rfl
      | 2, h => cases h; rfl
      | 3, h => cases h
      | i + 4, h =>
        exfalso
        have : goodTree.get (2 ^ 0 * (2 * (i + 4) + 1) - 1) = none := by
          unfold RatchetTree.get
          rw [List.getElem?_eq_none (show goodTree.length ≤ _ by rw [show goodTree.length = 7 from rfl]; omega)]
          rfl
        rw [this] at h
        cases h
    rw [hc]
    refine ⟨fun hm => ?_, ⟨_, List.mem_singleton_self _, nofun, nofun⟩, ⟨_, List.mem_singleton_self _, by decide⟩⟩
    have := hm.credentials _ (List.mem_singleton_self _)
    exact absurd this (by decide)

/-- C75, what is true: in an accepted tree whose members list no credential type twice, every member supports the credential
of every member, and the extensions of its own leaf.  Missing: what the group requires, see `C75_blind` and `C75_refuted`. -/
theorem C75_partial (P : CryptoProvider) (t : RatchetTree) (ctx : GroupContext) (now : Int) (Hs : Hash)
    (hP : P.hash ctx.cipher_suite = .ok Hs) (h0 : 0 < t.length) (hl : t.length < 2 ^ 32) (K : Nat)
    (hK : IsHeight ((t.length + 1) / 2) K) (h : verify_integrity P t ctx now = .ok ())
    (hd : ∀ i l, t.get (node 0 i) = some (.Leaf l) → l.payload.capabilities.credentials.Nodup) :
    (∀ i j l m, t.get (node 0 i) = some (.Leaf l) → t.get (node 0 j) = some (.Leaf m) →
      credTypeOf m.payload.credential ∈ l.payload.capabilities.credentials) ∧
    ∀ i l, t.get (node 0 i) = some (.Leaf l) → ∀ e ∈ l.payload.extensions,
      e.extension_type ∈ l.payload.capabilities.extensions := by
  have hv := C19_sound P t ctx now Hs hP h0 hl K hK h
  refine ⟨fun i j l m hi hj => ?_, fun i l hi => (hv.leaves i l hi).extensions⟩
  obtain ⟨r, hr, he⟩ := C25_exact t hl
  obtain ⟨r', hr', he'⟩ := C25_partial t hl hd
  cases hr.symm.trans hr'
  have hn : t.num_leaves = (t.length + 1) / 2 := by
    rw [(num_leaves_bounds h0 hl).2.2]
    omega
  have hs := (hv.leaves j m hj).credential
  rw [← hn] at hs
  refine ((he' _).1 ((he _).2 hs)).2 i l ?_ hi
  rw [hn]
  have : node 0 i < t.length := Nat.lt_of_not_le fun hle => by
    unfold RatchetTree.get at hi
    rw [List.getElem?_eq_none hle] at hi
    cases hi
  unfold node at this
  omega

set_option maxRecDepth 100000 in
/-- The hypotheses hold for the example tree, which has three members. -/
example : toyProvider.hash (contextOf goodTree).cipher_suite = .ok toyHash ∧ 0 < goodTree.length ∧
    IsHeight ((goodTree.length + 1) / 2) 2 ∧ verify_integrity toyProvider goodTree (contextOf goodTree) 0 = .ok () :=
  ⟨rfl, by decide, goodTree_height, by decide +kernel⟩

end Rmls
