import Verif.Proofs.Tree
import Verif.Spec.Tree

/-! # C41: contour sequences -/

namespace CQ

theorem parentOf_some {α : Type} {t : CTree α} {i p : ℕ} :
    t.parentOf i = some p ↔ ∃ a, t[i]? = some a ∧ a.parent = some p := by
  unfold CTree.parentOf
  exact Option.bind_eq_some_iff

theorem built_ok {α : Type} {t : CTree α} (h : Built t) : TreeOK t := by
  induction h with
  | init root =>
    intro i p hp
    obtain ⟨a, h1, h2⟩ := parentOf_some.mp hp
    cases i with
    | zero => cases h1; cases h2
    | succ i => simp [CTree.init] at h1
  | lock t i _ ih =>
    intro k p hp
    obtain ⟨a, h1, h2⟩ := parentOf_some.mp hp
    refine ih k p (parentOf_some.mpr ?_)
    unfold CTree.lock at h1
    rw [List.getElem?_modify] at h1
    cases hk : t[k]? with
    | none => rw [hk] at h1; simp at h1
    | some b =>
      rw [hk] at h1
      simp only [Option.map_eq_map, Option.map_some, Option.some.injEq] at h1
      refine ⟨b, rfl, ?_⟩
      rw [← h2, ← h1]
      split <;> rfl
  | branch t i objs _ hi ih =>
    intro k p hp
    obtain ⟨a, h1, h2⟩ := parentOf_some.mp hp
    unfold CTree.branch at h1
    by_cases hk : k < t.length
    · rw [List.getElem?_append_left hk] at h1
      exact ih k p (parentOf_some.mpr ⟨a, h1, h2⟩)
    · rw [List.getElem?_append_right (by omega), List.getElem?_map, Option.map_eq_some_iff] at h1
      obtain ⟨o, -, rfl⟩ := h1
      cases h2
      omega

section
variable {α : Type} {t : CTree α}

/-- All positions on the way up are positions of nodes. -/
theorem traverse_lt (h : TreeOK t) {i : ℕ} (hi : i < t.length) : ∀ k ∈ t.traverse i, k ≤ i := by
  induction i using Nat.strong_induction_on with
  | _ i ih =>
    rw [traverse_eq h]
    intro k hk
    rcases List.mem_cons.mp hk with rfl | hk
    · exact le_rfl
    · cases hp : t.parentOf i with
      | none => rw [hp] at hk; cases hk
      | some p =>
        rw [hp] at hk
        have := h i p hp
        exact le_trans (ih p this (by omega) k hk) (by omega)

theorem traverse_nodup (h : TreeOK t) {i : ℕ} (hi : i < t.length) : (t.traverse i).Nodup := by
  induction i using Nat.strong_induction_on with
  | _ i ih =>
    rw [traverse_eq h]
    cases hp : t.parentOf i with
    | none => simp
    | some p =>
      have := h i p hp
      refine List.nodup_cons.mpr ⟨fun hm => ?_, ih p this (by omega)⟩
      have := traverse_lt h (i := p) (by omega) i hm
      omega

/-- The obj at a position. -/
theorem unwrap_eq (h : TreeOK t) {i : ℕ} {a : TNode α} (hi : t[i]? = some a) :
    t.unwrap i = a.obj :: (match a.parent with | none => [] | some p => t.unwrap p) := by
  unfold CTree.unwrap
  rw [traverse_eq h]
  have : t.parentOf i = a.parent := by unfold CTree.parentOf; rw [hi]; rfl
  rw [this]
  rw [List.filterMap_cons_some (by rw [hi]; rfl)]
  cases a.parent <;> rfl

theorem mem_unwrap {i : ℕ} {x : α} : x ∈ t.unwrap i ↔ ∃ k a, k ∈ t.traverse i ∧ t[k]? = some a ∧ a.obj = x := by
  unfold CTree.unwrap
  rw [List.mem_filterMap]
  constructor
  · rintro ⟨k, hk, h⟩
    obtain ⟨a, h1, h2⟩ := Option.map_eq_some_iff.mp h
    exact ⟨k, a, hk, h1, h2⟩
  · rintro ⟨k, a, hk, h1, h2⟩
    exact ⟨k, hk, Option.map_eq_some_iff.mpr ⟨a, h1, h2⟩⟩

theorem pos_unique (hd : t.objs.Nodup) {i k : ℕ} {a b : TNode α} (hi : t[i]? = some a) (hk : t[k]? = some b)
    (h : a.obj = b.obj) : i = k := by
  have h1 : t.objs[i]? = some a.obj := by unfold CTree.objs; rw [List.getElem?_map, hi]; rfl
  have h2 : t.objs[k]? = some a.obj := by unfold CTree.objs; rw [List.getElem?_map, hk, h]; rfl
  have hlt := (List.getElem?_eq_some_iff.mp h1).1
  exact (List.getElem?_inj hlt hd).mp (h1.trans h2.symm)

theorem isParentObj_fun (hd : t.objs.Nodup) (x y z : α) (h1 : IsParentObj t x y) (h2 : IsParentObj t x z) : y = z := by
  obtain ⟨i, p, a, b, a1, a2, a3, a4, a5⟩ := h1
  obtain ⟨k, q, c, d, c1, c2, c3, c4, c5⟩ := h2
  have := pos_unique hd a1 c1 (a4.trans c4.symm)
  subst this
  rw [a1] at c1; cases c1
  rw [a2] at c2; cases c2
  rw [a3] at c3; cases c3
  exact a5.symm.trans c5

theorem unwrap_chain (h : TreeOK t) (hd : t.objs.Nodup) {i : ℕ} (hi : i < t.length) :
    ChainTo (IsParentObj t) [] (t.unwrap i) := by
  have hnd : (t.unwrap i).Nodup := by
    unfold CTree.unwrap
    refine List.Nodup.filterMap ?_ (traverse_nodup h hi)
    intro k k' x h1 h2
    obtain ⟨a, h3, h4⟩ := Option.map_eq_some_iff.mp h1
    obtain ⟨b, h5, h6⟩ := Option.map_eq_some_iff.mp h2
    exact pos_unique hd h3 h5 (h4.trans h6.symm)
  obtain ⟨a, ha⟩ : ∃ a, t[i]? = some a := ⟨t[i], List.getElem?_eq_getElem hi⟩
  have hne : t.unwrap i ≠ [] := by rw [unwrap_eq h ha]; simp
  have key : List.IsChain (IsParentObj t) (t.unwrap i) ∧ ∀ x ∈ (t.unwrap i).getLast?, ∀ y, ¬ IsParentObj t x y := by
    clear hnd hne
    induction i using Nat.strong_induction_on generalizing a with
    | _ i ih =>
      rw [unwrap_eq h ha]
      cases hp : a.parent with
      | none =>
        refine ⟨by simp, ?_⟩
        rintro x hx y ⟨k, q, c, d, c1, c2, c3, c4, c5⟩
        simp at hx
        have := pos_unique hd ha c1 (by rw [c4, hx])
        subst this
        rw [ha] at c1; cases c1
        rw [hp] at c2; cases c2
      | some p =>
        have hlt := h i p (parentOf_some.mpr ⟨a, ha, hp⟩)
        obtain ⟨b, hb⟩ : ∃ b, t[p]? = some b := ⟨t[p]'(by omega), List.getElem?_eq_getElem (by omega)⟩
        obtain ⟨h1, h2⟩ := ih p hlt (by omega) b hb
        simp only
        have hub := unwrap_eq h hb
        refine ⟨?_, ?_⟩
        · rw [hub] at h1 ⊢
          exact List.isChain_cons_cons.mpr ⟨⟨i, p, a, b, ha, hp, hb, rfl, rfl⟩, h1⟩
        · rw [hub] at h2 ⊢
          rw [List.getLast?_cons_cons]
          exact h2
  exact ⟨key.1, hne, hnd, by simp, fun x hx y hxy => absurd hxy (key.2 x hx y)⟩

theorem mem_leaves {i : ℕ} : i ∈ t.leaves ↔ i < t.length ∧ ∀ b ∈ t, b.parent ≠ some i := by
  unfold CTree.leaves CTree.parents
  simp

theorem traverse_parents (h : TreeOK t) {i k : ℕ} (hk : k ∈ t.traverse i) : k = i ∨ ∃ b ∈ t, b.parent = some k := by
  induction i using Nat.strong_induction_on with
  | _ i ih =>
    rw [traverse_eq h] at hk
    rcases List.mem_cons.mp hk with rfl | hk
    · exact Or.inl rfl
    · right
      cases hp : t.parentOf i with
      | none => rw [hp] at hk; cases hk
      | some p =>
        rw [hp] at hk
        obtain ⟨a, h1, h2⟩ := parentOf_some.mp hp
        rcases ih p (h i p hp) hk with rfl | hb
        · exact ⟨a, List.mem_of_getElem? h1, h2⟩
        · exact hb

theorem traverse_up (h : TreeOK t) {i k p : ℕ} (hk : k ∈ t.traverse i) (hp : t.parentOf k = some p) : p ∈ t.traverse i := by
  induction i using Nat.strong_induction_on with
  | _ i ih =>
    rw [traverse_eq h] at hk ⊢
    rcases List.mem_cons.mp hk with rfl | hk
    · rw [hp]
      simp only
      rw [traverse_eq h]
      simp
    · cases hq : t.parentOf i with
      | none => rw [hq] at hk; cases hk
      | some q =>
        rw [hq] at hk
        exact List.mem_cons_of_mem _ (ih q (h i q hq) hk)

theorem exists_leaf (h : TreeOK t) (n i : ℕ) (hi : i < t.length) (hn : t.length - i ≤ n) : ∃ l ∈ t.leaves, i ∈ t.traverse l := by
  induction n generalizing i with
  | zero => omega
  | succ n ih =>
    by_cases hl : ∀ b ∈ t, b.parent ≠ some i
    · exact ⟨i, mem_leaves.mpr ⟨hi, hl⟩, by rw [traverse_eq h]; simp⟩
    · push Not at hl
      obtain ⟨b, hb, hp⟩ := hl
      obtain ⟨k, hk⟩ := List.mem_iff_getElem?.mp hb
      have hpk : t.parentOf k = some i := parentOf_some.mpr ⟨b, hk, hp⟩
      have h1 := h k i hpk
      have h2 := parentOf_lt hpk
      obtain ⟨l, hl, hm⟩ := ih k h2 (by omega)
      exact ⟨l, hl, traverse_up h hm hpk⟩

end

/-- C41.  For every tree built with the operations of the class whose objects are distinct: the sequences contain
every object exactly once; none is empty; their lengths do not increase; each starts at a leaf and goes from child to
parent, up to an object without parent or whose parent is in an earlier sequence. -/
theorem C41_sequences {α : Type} [DecidableEq α] (t : CTree α) (hb : Built t) (hd : t.objs.Nodup) :
    t.sequences.flatten.Perm t.objs ∧
    t.sequences.Pairwise (fun a b => b.length ≤ a.length) ∧
    ∀ pre s post, t.sequences = pre ++ s :: post →
      List.IsChain (IsParentObj t) s ∧
      (∃ x, s.head? = some x ∧ IsLeafObj t x) ∧
      ∃ x, s.getLast? = some x ∧ ∀ y, IsParentObj t x y → y ∈ pre.flatten := by
  have h := built_ok hb
  have hc : ∀ c ∈ t.leaves.map t.unwrap, ChainTo (IsParentObj t) [] c := by
    intro c hc
    obtain ⟨i, hi, rfl⟩ := List.mem_map.mp hc
    exact unwrap_chain h hd (mem_leaves.mp hi).1
  have hhead : ∀ i ∈ t.leaves, ∃ a, t[i]? = some a ∧ (t.unwrap i).head? = some a.obj := by
    intro i hi
    have hlt := (mem_leaves.mp hi).1
    refine ⟨t[i], List.getElem?_eq_getElem hlt, ?_⟩
    rw [unwrap_eq h (List.getElem?_eq_getElem hlt)]
    rfl
  have hnot : ∀ i ∈ t.leaves, ∀ k ∈ t.leaves, i ≠ k → ∀ x ∈ (t.unwrap i).head?, x ∉ t.unwrap k := by
    intro i hi k hk hne x hx hm
    obtain ⟨a, ha, h1⟩ := hhead i hi
    rw [h1] at hx
    cases hx
    obtain ⟨m, b, h2, h3, h4⟩ := mem_unwrap.mp hm
    have := pos_unique hd h3 ha h4
    subst this
    rcases traverse_parents h h2 with rfl | ⟨c, hc1, hc2⟩
    · exact hne rfl
    · exact (mem_leaves.mp hi).2 c hc1 hc2
  have hap : (t.leaves.map t.unwrap).Pairwise Apart := by
    rw [List.pairwise_map]
    have hnd : t.leaves.Nodup := by unfold CTree.leaves; exact List.nodup_range.filter _
    refine List.Pairwise.imp_of_mem ?_ hnd
    intro i k hi hk hne
    exact ⟨hnot i hi k hk hne, hnot k hk i hi (Ne.symm hne)⟩
  obtain ⟨h1, h2, h3, h4, h5⟩ := sequencesFrom_spec (isParentObj_fun hd) _ (t.leaves.map t.unwrap) [] rfl hc hap (by simp)
  refine ⟨?_, h3, ?_⟩
  · refine (List.perm_ext_iff_of_nodup h2 hd).mpr ?_
    intro x
    refine (h1 x).trans ?_
    unfold CTree.objs
    rw [List.mem_map]
    constructor
    · rintro ⟨c, hc', hx⟩
      obtain ⟨i, hi, rfl⟩ := List.mem_map.mp hc'
      obtain ⟨k, a, -, h7, h8⟩ := mem_unwrap.mp hx
      exact ⟨a, List.mem_of_getElem? h7, h8⟩
    · rintro ⟨a, ha, rfl⟩
      obtain ⟨i, hi⟩ := List.mem_iff_getElem?.mp ha
      have hlt := (List.getElem?_eq_some_iff.mp hi).1
      obtain ⟨l, hl, hm⟩ := exists_leaf h _ i hlt le_rfl
      exact ⟨_, List.mem_map.mpr ⟨l, hl, rfl⟩, mem_unwrap.mpr ⟨i, a, hm, hi, rfl⟩⟩
  · intro pre s post heq
    have hch := h5 pre s post heq
    refine ⟨hch.chain, ?_, ?_⟩
    · obtain ⟨c, hc', post', rfl⟩ := h4 s (by unfold CTree.sequences at heq; rw [heq]; simp)
      obtain ⟨i, hi, h6⟩ := List.mem_map.mp hc'
      obtain ⟨a, ha, h7⟩ := hhead i hi
      refine ⟨a.obj, ?_, i, a, ha, rfl, (mem_leaves.mp hi).2⟩
      rw [h6] at h7
      obtain ⟨b, l, hs⟩ := List.exists_cons_of_ne_nil hch.nonempty
      rw [hs] at h7 ⊢
      exact h7
    · refine ⟨s.getLast hch.nonempty, List.getLast?_eq_some_getLast hch.nonempty, ?_⟩
      intro y hy
      have := hch.top _ (List.getLast?_eq_some_getLast hch.nonempty) y hy
      simpa using this

/-- A tree with a fork. -/
example : Built (((CTree.init 0).branch 0 [1, 2]).branch 2 [3]) ∧
    (((CTree.init 0).branch 0 [1, 2]).branch 2 [3]).objs.Nodup ∧
    (((CTree.init 0).branch 0 [1, 2]).branch 2 [3]).sequences = [[3, 2, 0], [1]] :=
  ⟨.branch _ _ _ (.branch _ _ _ (.init 0) (by decide)) (by decide), by decide, by decide +kernel⟩

end CQ
