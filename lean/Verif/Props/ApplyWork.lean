import Verif.Proofs.ApplyWork
import Verif.Props.Unchecked
/-
Property C113: how much work it is to apply a commit.
-/
namespace Rmls
open Spec RatchetTree Tolled

private abbrev suite1 : CipherSuite := .MLS_128_DHKEMX25519_AES128GCM_SHA256_Ed25519

/-- C113: what is counted is the model: the counting version has the same result. -/
theorem C113_same (t : RatchetTree) (ps : List Proposal) (ss : List LeafIndex) : (Tolling.apply t ps ss).res = t.apply ps ss :=
  Tolling.apply_res t ps ss

/-- The places of the leaves that are taken. -/
def Spec.taken (t : RatchetTree) : List Nat := (List.range ((t.length + 1) / 2)).filter fun i => (t.get (2 * i)).isSome

private theorem taken_covers {t : RatchetTree} (i : Nat) (h : t.get (2 * i) ≠ none) : i ∈ taken t := by
  have := RatchetTree.get_ne_none_lt h
  exact List.mem_filter.2 ⟨List.mem_range.2 (by omega), Option.isSome_iff_ne_none.2 h⟩

private theorem taken_le (t : RatchetTree) : (taken t).length ≤ (t.length + 1) / 2 :=
  Nat.le_trans (List.length_filter_le _ _) (by rw [List.length_range]; omega)

/-- What the first two loops leave, with their work. -/
private theorem parts (t : RatchetTree) (ps : List Proposal) (ss : List LeafIndex) (c : LeafIndex)
    (hl : t.length < 2 ^ 31) (hv : verify_proposal_list ps ss c = .ok ())
    (hc : t.get (2 * c.toNat) ≠ none) (hu : ∀ u ∈ updatesOf (ps.zip ss), t.get (2 * u.1) ≠ none)
    (hr : ∀ r ∈ removesOf ps, t.get (2 * r) ≠ none) :
    ∃ t2 w, (Tolling.apply t ps ss).toll = Toll.plus w (Tolling.applyAdds ps t2).toll ∧
      w.visits ≤ (removesOf ps).length * ((t.length + 1) / 2) ∧ w.copies = 0 ∧ 0 < t2.length ∧ t2.length ≤ t.length ∧
      ∀ i, t2.get (2 * i) ≠ none ↔ t.get (2 * i) ≠ none ∧ i ∉ removesOf ps := by
  obtain ⟨hlen, hval, _⟩ := (C26_exact ps ss c).1 hv
  have hcl := RatchetTree.get_ne_none_lt hc
  have hnd : (((ps.zip ss).filterMap touchedLeaf).map UInt32.toNat).Nodup := by
    rw [List.nodup_iff_pairwise_ne, List.pairwise_map]
    exact hval.leaves.imp fun hne he => hne (UInt32.toNat_inj.1 he)
  have hcn : c.toNat ∉ ((ps.zip ss).filterMap touchedLeaf).map UInt32.toNat := by
    rw [List.mem_map]
    rintro ⟨d, hd, he⟩
    exact hval.committer (UInt32.toNat_inj.1 he ▸ hd)
  obtain ⟨t1, e1, l1, g1⟩ := RatchetTree.updates_ok _ t (by omega) (by omega) hu
  have hrn := (removes_sub ps ss hlen).nodup hnd
  have hr1 : ∀ r ∈ removesOf ps, t1.get (2 * r) ≠ none := fun r hrm hn => hr r hrm ((g1 r).1 hn)
  obtain ⟨t2, e2, l2, g2⟩ := RatchetTree.removes_ok (removesOf ps) t1 (by omega) hrn hr1
  have hc2 : t2.get (2 * c.toNat) ≠ none := by
    rw [g2, if_neg fun h => hcn ((removes_sub ps ss hlen).subset h)]
    exact fun hn => hc ((g1 _).1 hn)
  have hc2l := RatchetTree.get_ne_none_lt hc2
  obtain ⟨v, k⟩ := Tolling.applyRemoves_le ps t1 ((t.length + 1) / 2) (by omega) hrn hr1 (by omega)
  have hup : applyUpdates ss 0 ps t = .ok t1 := by
    rw [applyUpdates_eq ss ps 0 t (by omega), List.drop_zero]; exact e1
  refine ⟨t2, (Tolling.applyRemoves ps t1).toll, ?_, v, k, by omega, by omega, fun i => ?_⟩
  · unfold Tolling.apply
    rw [Tolling.free_bind, hup]
    dsimp only
    exact Tolling.bind_toll (by rw [Tolling.applyRemoves_res, applyRemoves_eq]; exact e2) _
  · rw [g2]
    split
    · rename_i h; exact ⟨fun hn => absurd rfl hn, fun hn => absurd h hn.2⟩
    · rename_i h
      exact ⟨fun hn => ⟨fun hx => hn ((g1 i).2 hx), h⟩, fun hn hx => hn.1 ((g1 i).1 hx)⟩

/-- C113, what is true: of a commit whose proposals pass the check, by a member, that updates and removes members, each remove
looks at no more slots than there are leaves, each add at no more than there are members by then; and no more slots are appended
than four times the members that there are in the end.  Missing: a bound in proportion to the size of the tree and of the
commit, see `C113_refuted`. -/
theorem C113_partial (t : RatchetTree) (ps : List Proposal) (ss : List LeafIndex) (c : LeafIndex)
    (hl : 2 * t.length + 4 * (addsOf ps).length + 3 < 2 ^ 31) (hv : verify_proposal_list ps ss c = .ok ())
    (hc : t.get (2 * c.toNat) ≠ none) (hu : ∀ u ∈ updatesOf (ps.zip ss), t.get (2 * u.1) ≠ none)
    (hr : ∀ r ∈ removesOf ps, t.get (2 * r) ≠ none) :
    (Tolling.apply t ps ss).toll.visits ≤ (removesOf ps).length * ((t.length + 1) / 2) +
      (addsOf ps).length * ((taken t).length + (addsOf ps).length) ∧
    (Tolling.apply t ps ss).toll.copies ≤ 4 * ((taken t).length + (addsOf ps).length) + 1 := by
  obtain ⟨t2, w, e, wv, wc, h0, h2, g⟩ := parts t ps ss c (by omega) hv hc hu hr
  have hS := taken_le t
  obtain ⟨v, k⟩ := Tolling.applyAdds_le ps t2 (taken t) h0 (by omega) (fun i hi => taken_covers i ((g i).1 hi).1) (by omega)
  rw [e]
  exact ⟨by show _ + _ ≤ _; omega, by show _ + _ ≤ _; omega⟩

/-- C113, the other way: if no one is removed, each add looks at every member on the left of the first gap. -/
theorem C113_least (t : RatchetTree) (ps : List Proposal) (ss : List LeafIndex) (c : LeafIndex) (n : Nat)
    (hl : 2 * t.length + 4 * (addsOf ps).length + 3 < 2 ^ 31) (hv : verify_proposal_list ps ss c = .ok ())
    (hc : t.get (2 * c.toNat) ≠ none) (hu : ∀ u ∈ updatesOf (ps.zip ss), t.get (2 * u.1) ≠ none)
    (hr : removesOf ps = []) (hn : ∀ i, i < n → t.get (2 * i) ≠ none) :
    (addsOf ps).length * n ≤ (Tolling.apply t ps ss).toll.visits := by
  obtain ⟨t2, w, e, _, _, h0, h2, g⟩ := parts t ps ss c (by omega) hv hc hu (by rw [hr]; nofun)
  have hS := taken_le t
  have := Tolling.applyAdds_ge ps t2 (taken t) n h0 (by omega) (fun i hi => taken_covers i ((g i).1 hi).1) (by omega)
    fun i hi => (g i).2 ⟨hn i hi, by rw [hr]; nofun⟩
  rw [e]
  show _ ≤ _ + _
  omega

/-- C113: what a remove looks at, exactly: the leaves from the end of the array down to the last member other than the one
removed. -/
theorem C113_remove (t : RatchetTree) (li j : Nat) (hl : t.length < 2 ^ 32) (hli : 2 * li < t.length)
    (hj : t.get (2 * j) ≠ none) (hjl : j ≠ li) (hlast : ∀ i, j < i → i ≠ li → t.get (2 * i) = none) :
    (Tolling.remove t li).toll.visits = (t.length + 1) / 2 - j := by
  have := (num_leaves_bounds (t := t) (by omega) hl).2.2
  rw [Tolling.remove_visits hl hli hj hjl hlast]
  omega

/-- C113: what is appended, exactly: if no one is removed, as much as the array is longer afterwards. -/
theorem C113_grown (t t' : RatchetTree) (ps : List Proposal) (ss : List LeafIndex) (c : LeafIndex)
    (hl : 2 * t.length + 4 * (addsOf ps).length + 3 < 2 ^ 31) (hv : verify_proposal_list ps ss c = .ok ())
    (hc : t.get (2 * c.toNat) ≠ none) (hu : ∀ u ∈ updatesOf (ps.zip ss), t.get (2 * u.1) ≠ none)
    (hr : removesOf ps = []) (h : t.apply ps ss = .ok t') :
    t.length + (Tolling.apply t ps ss).toll.copies = t'.length := by
  obtain ⟨hlen, hval, _⟩ := (C26_exact ps ss c).1 hv
  have hcl := RatchetTree.get_ne_none_lt hc
  obtain ⟨t1, e1, l1, g1⟩ := RatchetTree.updates_ok _ t (by omega) (by omega) hu
  have hup : applyUpdates ss 0 ps t = .ok t1 := by
    rw [applyUpdates_eq ss ps 0 t (by omega), List.drop_zero]; exact e1
  have hrm : RatchetTree.applyRemoves ps t1 = .ok t1 := by rw [applyRemoves_eq, hr]; rfl
  have hadd : RatchetTree.applyAdds ps t1 = .ok t' := by
    unfold RatchetTree.apply at h
    rw [hup, Res.ok_bind, hrm, Res.ok_bind] at h
    exact h
  have hS := taken_le t
  have hk := Tolling.applyAdds_copies ps t1 t' (taken t) (by omega) (by omega)
    (fun i hi => taken_covers i fun hn => hi ((g1 i).2 hn)) (by omega) hadd
  obtain ⟨_, k⟩ := Tolling.applyRemoves_le ps t1 ((t.length + 1) / 2) (by omega) (by rw [hr]; exact List.nodup_nil)
    (by rw [hr]; nofun) (by omega)
  have : (Tolling.apply t ps ss).toll = (Tolling.applyRemoves ps t1).toll.plus (Tolling.applyAdds ps t1).toll := by
    unfold Tolling.apply
    rw [Tolling.free_bind, hup]
    dsimp only
    exact Tolling.bind_toll (by rw [Tolling.applyRemoves_res]; exact hrm) _
  rw [this]
  show _ + (_ + _) = _
  omega

/-- A tree without a free leaf. -/
private def full (n : Nat) : RatchetTree :=
  (List.range (2 * n - 1)).map fun i => if i % 2 = 0 then some (.Leaf (toyLeaf 0)) else none

private theorem full_get {n i : Nat} (h : i < n) : (full n).get (2 * i) = some (.Leaf (toyLeaf 0)) := by
  unfold full RatchetTree.get
  rw [List.getElem?_map, List.getElem?_range (by omega)]
  simp

/-- A number as a key of four bytes. -/
private def key4 (i : Nat) : Bytes :=
  [UInt8.ofNat (i / 16777216), UInt8.ofNat (i / 65536), UInt8.ofNat (i / 256), UInt8.ofNat i]

private theorem key4_inj {i j : Nat} (hi : i < 4294967296) (hj : j < 4294967296) (h : key4 i = key4 j) : i = j := by
  simp only [key4, List.cons.injEq, and_true] at h
  obtain ⟨h1, h2, h3, h4⟩ := h
  have t1 := congrArg UInt8.toNat h1
  have t2 := congrArg UInt8.toNat h2
  have t3 := congrArg UInt8.toNat h3
  have t4 := congrArg UInt8.toNat h4
  simp only [UInt8.toNat_ofNat'] at t1 t2 t3 t4
  omega

/-- Key packages with different keys. -/
private def packages (a : Nat) : List KeyPackage :=
  (List.range a).map fun i => ⟨⟨.MLS10, suite1, [], { toyLeaf 0 with
    payload := { (toyLeaf 0).payload with signature_key := key4 i } }, []⟩, []⟩

private theorem packages_nodup (a : Nat) (ha : a < 4294967296) : ((packages a).map (·.payload.leaf_node.payload.signature_key)).Nodup := by
  unfold packages
  rw [List.map_map, List.nodup_iff_pairwise_ne, List.pairwise_map]
  refine List.nodup_range.imp_of_mem fun hi hj hne he => hne ?_
  rw [List.mem_range] at hi hj
  exact key4_inj (by omega) (by omega) he

/-- C113 fails as claimed: a valid commit that adds as many members as there are makes the client look at a square of slots.  No
factor makes the size of the tree and the commit a bound. -/
theorem C113_refuted (k : Nat) (h0 : 0 < k) (hk : 8 * k + 1 < 2 ^ 31) : ∃ (t : RatchetTree) (ps : List Proposal)
    (ss : List LeafIndex), t.length = 2 * k - 1 ∧ ps.length = k ∧ verify_proposal_list ps ss 0 = .ok () ∧
      (∃ t', t.apply ps ss = .ok t') ∧ k * k ≤ (Tolling.apply t ps ss).toll.visits := by
  have hlen : (full k).length = 2 * k - 1 := by unfold full; rw [List.length_map, List.length_range]
  have hpl : (packages k).length = k := by unfold packages; rw [List.length_map, List.length_range]
  let ps : List Proposal := (packages k).map fun x => .Add ⟨x⟩
  have hz : ps.zip (List.replicate ps.length (0 : LeafIndex)) = ps.map fun p => (p, (0 : LeafIndex)) := zip_replicate ps 0
  have hpsks : PsksFit (ps.map fun p => (p, (0 : LeafIndex))) := by
    intro id hid
    obtain ⟨a, ha, he⟩ := List.mem_filterMap.1 hid
    obtain ⟨q, hq, rfl⟩ := List.mem_map.1 ha
    obtain ⟨x, _, rfl⟩ := List.mem_map.1 hq
    cases he
  have hlist : verify_proposal_list ps (List.replicate ps.length 0) 0 = .ok () :=
    (C26_exact _ _ _).2 ⟨by rw [List.length_replicate], by rw [hz]; exact adds_valid _ 0 (packages_nodup k (by omega)),
      by rw [hz]; exact hpsks⟩
  obtain ⟨hu, hr, hal⟩ := adds_only (packages k) (List.replicate ps.length 0)
  have hroom : 2 * (full k).length + 4 * (addsOf ps).length + 3 < 2 ^ 31 := by rw [hal, hpl, hlen]; omega
  have hc : (full k).get (2 * (0 : LeafIndex).toNat) ≠ none := by
    have := full_get h0
    rw [show 2 * (0 : LeafIndex).toNat = 2 * 0 from rfl, this]; nofun
  refine ⟨full k, ps, List.replicate ps.length 0, hlen, by show (List.map _ _).length = k; rw [List.length_map, hpl], hlist,
    C84_commit_partial (full k) ps _ 0 hroom hlist hc (by rw [hu]; nofun) (by rw [hr]; nofun), ?_⟩
  have := C113_least (full k) ps _ 0 k hroom hlist hc (by rw [hu]; nofun) hr fun i hi => by rw [full_get hi]; nofun
  rwa [hal, hpl] at this

/-- In particular: a million new members for a million members are 10¹² looks. -/
example : ∃ (t : RatchetTree) (ps : List Proposal) (ss : List LeafIndex), ps.length = 1000000 ∧ t.length = 1999999 ∧
    verify_proposal_list ps ss 0 = .ok () ∧ 1000000000000 ≤ (Tolling.apply t ps ss).toll.visits := by
  obtain ⟨t, ps, ss, h1, h2, h3, _, h4⟩ := C113_refuted 1000000 (by omega) (by omega)
  exact ⟨t, ps, ss, h2, h1, h3, h4⟩

set_option maxRecDepth 100000 in
/-- The hypotheses of `C113_partial` are met by a commit that updates, removes and adds: three leaves, of which one is removed,
so that the one that is added looks at two slots, and the remove at one. -/
example : let t := full 3
    let ps : List Proposal := [.Remove ⟨1⟩, .Add ⟨⟨⟨.MLS10, suite1, [], toyLeaf 7, []⟩, []⟩⟩, .Update ⟨toyLeaf 9⟩]
    let ss : List LeafIndex := [0, 0, 2]
    verify_proposal_list ps ss 0 = .ok () ∧ t.get (2 * (0 : LeafIndex).toNat) ≠ none ∧
    (∀ u ∈ updatesOf (ps.zip ss), t.get (2 * u.1) ≠ none) ∧ (∀ r ∈ removesOf ps, t.get (2 * r) ≠ none) ∧
    (Tolling.apply t ps ss).toll = ⟨0, 3, 0⟩ := by
  decide +kernel

set_option maxRecDepth 100000 in
/-- The hypotheses of `C113_grown` are met by a commit of two adds to a full tree of three leaves: the array doubles once. -/
example : let t := full 3
    let ps : List Proposal := [.Add ⟨⟨⟨.MLS10, suite1, [], toyLeaf 7, []⟩, []⟩⟩, .Add ⟨⟨⟨.MLS10, suite1, [], toyLeaf 8, []⟩, []⟩⟩]
    let ss : List LeafIndex := [0, 0]
    verify_proposal_list ps ss 0 = .ok () ∧ (∃ t', t.apply ps ss = .ok t' ∧ t'.length = 11) ∧
    (Tolling.apply t ps ss).toll = ⟨0, 8, 6⟩ := by
  refine ⟨by decide +kernel, ⟨_, rfl, by decide +kernel⟩, by decide +kernel⟩

/-- The hypotheses of `C113_remove` are met: of seven leaves the last is removed. -/
example : (Tolling.remove (full 7) 6).toll.visits = 2 :=
  C113_remove (full 7) 6 5 (by decide) (by decide) (by rw [full_get (by omega)]; nofun) (by decide) fun i h1 h2 =>
    RatchetTree.get_out (by show 13 ≤ _; omega)

end Rmls
