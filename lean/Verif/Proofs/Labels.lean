import Verif.Model.KeyPackage
import Verif.Spec.Labels
import Verif.Proofs.Inj
import Verif.Proofs.WireSpec
/-
The labelled operations feed the encodings of `Spec.Labels` to the primitives, and these encodings determine
their parts.
-/
namespace Rmls
open Spec Spec.Enc

/-! ### Encodings that can be told apart from what follows -/

/-- Equal encodings come from equal values, whatever follows them. -/
structure PrefixFree {α : Type} (f : α → Enc) (W : α → Prop) : Prop where
  pre : ∀ {x y : α} {r r' : Bytes}, W x → W y → (f x).fits → (f y).fits →
    (f x).bytes ++ r = (f y).bytes ++ r' → x = y ∧ r = r'

theorem Inj.prefixFree {α : Type} {s : α → Res Bytes} {W : α → Prop} {f : α → Enc} (h : Inj s W)
    (hw : ∀ x, W x → Writes (s x) (f x)) : PrefixFree f W where
  pre := fun hx hy fx fy he => h.pre hx hy (writes_ok (hw _ hx) fx) (writes_ok (hw _ hy) fy) he

theorem PrefixFree.eq {α : Type} {f : α → Enc} {W : α → Prop} (h : PrefixFree f W) {x y : α} (hx : W x)
    (hy : W y) (fx : (f x).fits) (fy : (f y).fits) (he : (f x).bytes = (f y).bytes) : x = y :=
  (h.pre (r := []) (r' := []) hx hy fx fy (by rw [he])).1

theorem opq_pf : PrefixFree opq (fun _ => True) := opaque_inj.prefixFree fun _ _ => writes_opaque _
theorem u16_pf : PrefixFree (fun v : UInt16 => uint 2 v.toNat) (fun _ => True) :=
  u16_inj.prefixFree fun _ _ => writes_u16 _ _ rfl
theorem u32_pf : PrefixFree (fun v : UInt32 => uint 4 v.toNat) (fun _ => True) :=
  u32_inj.prefixFree fun _ _ => writes_u32 _
theorem u64_pf : PrefixFree (fun v : UInt64 => uint 8 v.toNat) (fun _ => True) :=
  u64_inj.prefixFree fun _ _ => writes_u64 _

theorem PrefixFree.seq {α β : Type} {f : α → Enc} {g : β → Enc} {V : α → Prop} {W : β → Prop}
    (hf : PrefixFree f V) (hg : PrefixFree g W) :
    PrefixFree (fun p : α × β => seq (f p.1) (g p.2)) (fun p => V p.1 ∧ W p.2) where
  pre := by
    rintro ⟨x1, x2⟩ ⟨y1, y2⟩ r r' hx hy fx fy he
    simp only [Enc.bytes, List.append_assoc] at he
    obtain ⟨h1, h2⟩ := hf.pre hx.1 hy.1 fx.1 fy.1 he
    obtain ⟨h3, h4⟩ := hg.pre hx.2 hy.2 fx.2 fy.2 h2
    exact ⟨by rw [show x1 = y1 from h1, show x2 = y2 from h3], h4⟩

theorem text_prefix : MLS_PREFIX = text "MLS 1.0 " := by decide

theorem labelled_inj {l l' c c' : Bytes} (f : (labelled l c).fits) (f' : (labelled l' c').fits)
    (h : (labelled l c).bytes = (labelled l' c').bytes) : l = l' ∧ c = c' := by
  have := (opq_pf.seq opq_pf).eq (x := (text "MLS 1.0 " ++ l, c)) (y := (text "MLS 1.0 " ++ l', c'))
    ⟨trivial, trivial⟩ ⟨trivial, trivial⟩ f f' h
  injection this with h1 h2
  exact ⟨List.append_cancel_left h1, h2⟩

theorem kdfLabel_inj {n n' : UInt16} {l l' c c' : Bytes} (f : (kdfLabel n.toNat l c).fits)
    (f' : (kdfLabel n'.toNat l' c').fits) (h : (kdfLabel n.toNat l c).bytes = (kdfLabel n'.toNat l' c').bytes) :
    n = n' ∧ l = l' ∧ c = c' := by
  have := (u16_pf.seq (opq_pf.seq opq_pf)).eq (x := (n, text "MLS 1.0 " ++ l, c))
    (y := (n', text "MLS 1.0 " ++ l', c')) ⟨trivial, trivial, trivial⟩ ⟨trivial, trivial, trivial⟩ f f' h
  injection this with h1 h2
  injection h2 with h2 h3
  exact ⟨h1, List.append_cancel_left h2, h3⟩

theorem refHashInput_inj {l l' c c' : Bytes} (f : (refHashInput l c).fits) (f' : (refHashInput l' c').fits)
    (h : (refHashInput l c).bytes = (refHashInput l' c').bytes) : l = l' ∧ c = c' := by
  have := (opq_pf.seq opq_pf).eq (x := (l, c)) (y := (l', c')) ⟨trivial, trivial⟩ ⟨trivial, trivial⟩ f f' h
  injection this with h1 h2
  exact ⟨h1, h2⟩

/-! ### What the operations feed to the primitives -/

/-- Either the input is encoded and the operation goes on, or it is too long. -/
theorem writes_bind {α : Type} {r : Res Bytes} {e : Enc} (h : Writes r e) (k : Bytes → Res α) :
    (e.fits ∧ (r >>= k) = k e.bytes) ∨ (¬ e.fits ∧ ∃ x, (r >>= k) = .err x) := by
  rcases writes_cases h with ⟨f, h⟩ | ⟨f, x, h⟩
  · exact .inl ⟨f, by rw [h]; rfl⟩
  · exact .inr ⟨f, x, by rw [h]; rfl⟩

theorem mls_prefix_label_data_w (label data : Bytes) :
    Writes (mls_prefix_label_data label data) (labelled label data) := by
  unfold mls_prefix_label_data labelled
  rw [← text_prefix]
  writes

theorem kdfLabel_w (n : UInt16) (label context : Bytes) :
    Writes (put_u16 n +++ serialize_opaque_vec (MLS_PREFIX ++ label) +++ serialize_opaque_vec context)
      (kdfLabel n.toNat label context) := by
  unfold kdfLabel
  rw [← text_prefix]
  writes

theorem refHashInput_w (label value : Bytes) :
    Writes (serialize_opaque_vec label +++ serialize_opaque_vec value) (refHashInput label value) := by
  writes

theorem leafNodeTBS_w (x : LeafNodePayload) (gid : Bytes) (li : LeafIndex) :
    Writes (LeafNodeTBS.serialize x (.UpdateOrCommit gid li)) (leafNodeTBS x gid li) := by
  unfold LeafNodeTBS.serialize leafNodeTBS
  refine Writes.app (leafNodePayload_w _) ?_
  cases x.leaf_node_source <;> first | exact writes_empty | exact Writes.app (writes_opaque _) (writes_u32 _)

theorem leafNodeTBS_w' (x : LeafNodePayload) (lt : Lifetime) (h : x.leaf_node_source = .KeyPackage lt)
    (info : TreeInfoTBS) (gid : Bytes) (li : LeafIndex) :
    Writes (LeafNodeTBS.serialize x info) (leafNodeTBS x gid li) := by
  unfold LeafNodeTBS.serialize leafNodeTBS
  refine Writes.app (leafNodePayload_w _) ?_
  rw [h]
  exact writes_empty

theorem verify_with_label_iff (P : CryptoProvider) (cs : CipherSuite) (k l c sg : Bytes) :
    P.verify_with_label cs k l c sg = .ok () ↔ SignedBy P cs k l c sg := by
  unfold CryptoProvider.verify_with_label SignedBy
  rcases writes_bind (mls_prefix_label_data_w l c) (fun sign_content => do
    let s ← P.signature cs
    s.verify k sign_content sg) with ⟨f, h⟩ | ⟨f, x, h⟩
  · rw [h]
    cases hs : P.signature cs with
    | ok s =>
      simp only [Res.ok_bind]
      exact ⟨fun h => ⟨f, s, rfl, h⟩, fun ⟨_, s', h1, h2⟩ => by cases h1; exact h2⟩
    | err e =>
      simp only [Res.err_bind]
      exact ⟨(nomatch ·), fun ⟨_, s', h1, h2⟩ => nomatch h1⟩
    | fault e =>
      simp only [Res.fault_bind]
      exact ⟨(nomatch ·), fun ⟨_, s', h1, h2⟩ => nomatch h1⟩
  · rw [h]
    exact ⟨(nomatch ·), fun ⟨h, _⟩ => absurd h f⟩

end Rmls
