import Verif.Props.Codec
/-
Property C67: what is read from the wire is not larger than the message.
-/
namespace Rmls

/-- C67: a byte string that is read is part of the input. -/
theorem C67_opaque (buf v rest : Bytes) (h : deserialize_opaque_vec buf = .ok (v, rest)) :
    v.length < 2 ^ 30 ∧ v.length + rest.length < buf.length ∧ (v ++ rest) <:+ buf := by
  obtain ⟨h1, b, h2, rfl⟩ := lawful_opaque.canon _ _ _ h
  obtain ⟨_, hd, h3, rfl⟩ := serialize_opaque_vec_ok_iff.1 h2
  have := minLen_varint _ _ h3
  refine ⟨h1, by simp only [List.length_append]; omega, hd, ?_⟩
  rw [List.append_assoc]

/-- C67: however its elements are read, a vector that is read has fewer elements than the input has bytes. -/
theorem C67_vector {α : Type} (d : De α) (buf rest : Bytes) (xs : List α)
    (h : deserialize_vector d buf = .ok (xs, rest)) : xs.length < 2 ^ 30 ∧ xs.length + rest.length < buf.length :=
  deserialize_vector_count h

/-- C67: a tree that is read has at most twice as many slots as the input has bytes. -/
theorem C67_tree (buf rest : Bytes) (t : RatchetTree) (h : RatchetTree.deserialize buf = .ok (t, rest)) :
    t.length < 2 ^ 30 ∧ t.length + 2 * rest.length < 2 * buf.length := by
  unfold RatchetTree.deserialize at h
  obtain ⟨n, r, hn, h⟩ := De.bind_ok_iff.1 h
  obtain ⟨hp, rfl⟩ := De.lift_ok_iff.1 h
  obtain ⟨h1, h2⟩ := deserialize_vector_count hn
  have h4 := (RatchetTree.padLoop_length hp).2.2
  refine ⟨?_, ?_⟩
  · have := h4 30 (by omega); omega
  · by_cases h0 : n.length = 0
    · have : t.length + 1 ≤ 1 := h4 0 (by simp [h0])
      omega
    · have h5 : n.length < 2 ^ (n.length.log2 + 1) := Nat.lt_log2_self
      have h6 : 2 ^ n.length.log2 ≤ n.length := Nat.log2_self_le h0
      have := h4 (n.length.log2 + 1) (by omega)
      rw [Nat.pow_succ] at this
      omega

/-- The bound on trees is attained up to a few slots: five slots on the wire give seven. -/
example : ∃ t, RatchetTree.deserialize [10, 0, 0, 0, 0, 1, 2, 1, 1, 0, 0] = .ok (t, []) ∧ t.length = 7 :=
  ⟨[none, none, none, none, some (.Parent ⟨[1], [], []⟩), none, none], rfl, rfl⟩

end Rmls
