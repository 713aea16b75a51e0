import Verif.Model.Tree
import Mathlib.Data.List.Chain

/-! # Lemmas about contour trees -/

namespace CQ

/-- Every parent is older than its child. -/
def TreeOK {α : Type} (t : CTree α) : Prop := ∀ i p, t.parentOf i = some p → p < i

theorem ancestorsF_fuel {α : Type} {t : CTree α} (h : TreeOK t) {f g i : ℕ} (hf : i ≤ f) (hg : i ≤ g) :
    t.ancestorsF f i = t.ancestorsF g i := by
  induction f generalizing g i with
  | zero =>
    have : i = 0 := by omega
    subst this
    cases g with
    | zero => rfl
    | succ g =>
      unfold CTree.ancestorsF
      cases hp : t.parentOf 0 with
      | none => rfl
      | some p => exact absurd (h 0 p hp) (by omega)
  | succ f ih =>
    cases g with
    | zero =>
      have : i = 0 := by omega
      subst this
      unfold CTree.ancestorsF
      cases hp : t.parentOf 0 with
      | none => rfl
      | some p => exact absurd (h 0 p hp) (by omega)
    | succ g =>
      unfold CTree.ancestorsF
      cases hp : t.parentOf i with
      | none => rfl
      | some p =>
        have := h i p hp
        simp only
        rw [ih (g := g) (by omega) (by omega)]

theorem parentOf_lt {α : Type} {t : CTree α} {i p : ℕ} (h : t.parentOf i = some p) : i < t.length := by
  unfold CTree.parentOf at h
  by_contra hc
  rw [List.getElem?_eq_none (by omega)] at h
  cases h

theorem traverse_eq {α : Type} {t : CTree α} (h : TreeOK t) {i : ℕ} :
    t.traverse i = i :: (match t.parentOf i with | none => [] | some p => t.traverse p) := by
  unfold CTree.traverse
  by_cases hi : i < t.length
  · rw [ancestorsF_fuel h (g := i + 1) (by omega) (by omega)]
    rw [CTree.ancestorsF]
    cases hp : t.parentOf i with
    | none => rfl
    | some p =>
      have := h i p hp
      simp only
      rw [ancestorsF_fuel h (f := i) (g := t.length) (by omega) (by omega)]
  · cases hp : t.parentOf i with
    | some p => exact absurd (parentOf_lt hp) hi
    | none =>
      cases hl : t.length with
      | zero => simp [CTree.ancestorsF]
      | succ n => simp [CTree.ancestorsF, hp]

/-- Candidate sequences: chains along `R` that avoid `used` and end where nothing is above or `used` begins. -/
structure ChainTo {α : Type} (R : α → α → Prop) (used : List α) (c : List α) : Prop where
  chain : List.IsChain R c
  nonempty : c ≠ []
  nodup : c.Nodup
  disj : ∀ x ∈ c, x ∉ used
  top : ∀ x ∈ c.getLast?, ∀ y, R x y → y ∈ used

/-- The filter keeps a prefix. -/
theorem filter_chain {α : Type} [DecidableEq α] {R : α → α → Prop} {used : List α}
    (hcl : ∀ x ∈ used, ∀ y, R x y → y ∈ used) {c : List α} (hc : List.IsChain R c) :
    ∃ post, c = c.filter (fun x => decide (x ∉ used)) ++ post ∧ ∀ x ∈ post, x ∈ used := by
  induction c with
  | nil => exact ⟨[], by simp, by simp⟩
  | cons a c ih =>
    by_cases ha : a ∈ used
    · refine ⟨a :: c, ?_, ?_⟩
      · have : ∀ x ∈ a :: c, x ∈ used := by
          clear ih
          induction c generalizing a with
          | nil => simpa using ha
          | cons b c ih2 =>
            intro x hx
            rcases List.mem_cons.mp hx with rfl | hx
            · exact ha
            · exact ih2 b hc.tail (hcl a ha b (List.isChain_cons_cons.mp hc).1) x hx
        rw [List.filter_eq_nil_iff.mpr (by intro x hx; simpa using this x hx)]
        rfl
      · clear ih
        induction c generalizing a with
        | nil => simpa using ha
        | cons b c ih2 =>
          intro x hx
          rcases List.mem_cons.mp hx with rfl | hx
          · exact ha
          · exact ih2 b hc.tail (hcl a ha b (List.isChain_cons_cons.mp hc).1) x hx
    · obtain ⟨post, h1, h2⟩ := ih hc.tail
      refine ⟨post, ?_, h2⟩
      rw [List.filter_cons_of_pos (by simpa using ha), List.cons_append, ← h1]

theorem chainTo_filter {α : Type} [DecidableEq α] {R : α → α → Prop} (hR : ∀ x y z, R x y → R x z → y = z)
    {used s c : List α}
    (hcl : ∀ x ∈ used ++ s, ∀ y, R x y → y ∈ used ++ s) (hc : ChainTo R used c)
    (hhead : ∀ x ∈ c.head?, x ∉ s) : ChainTo R (used ++ s) (c.filter (fun x => decide (x ∉ used ++ s))) := by
  obtain ⟨post, h1, h2⟩ := filter_chain hcl hc.chain
  have hne : c.filter (fun x => decide (x ∉ used ++ s)) ≠ [] := by
    obtain ⟨a, l, rfl⟩ := List.exists_cons_of_ne_nil hc.nonempty
    have h3 := hc.disj a (by simp)
    have h4 := hhead a rfl
    rw [List.filter_cons_of_pos (by simp [h3, h4])]
    simp
  generalize hd : c.filter (fun x => decide (x ∉ used ++ s)) = d at *
  refine ⟨?_, hne, ?_, ?_, ?_⟩
  · rw [h1] at hc
    exact (List.isChain_append.mp hc.chain).1
  · rw [← hd]; exact hc.nodup.filter _
  · intro x hx
    rw [← hd] at hx
    simpa using (List.mem_filter.mp hx).2
  · intro x hx y hxy
    cases post with
    | nil =>
      rw [List.append_nil] at h1
      rw [← h1] at hx
      exact List.mem_append_left _ (hc.top x hx y hxy)
    | cons b post =>
      rw [h1] at hc
      have h3 := (List.isChain_append.mp hc.chain).2.2 x hx b rfl
      rw [hR x y b hxy h3]
      exact h2 b (by simp)

theorem filter_prefix {α : Type} [DecidableEq α] {R : α → α → Prop} {used : List α}
    (hcl : ∀ x ∈ used, ∀ y, R x y → y ∈ used) {c : List α} (hc : List.IsChain R c) :
    c.filter (fun x => decide (x ∉ used)) <+: c := by
  obtain ⟨post, h1, -⟩ := filter_chain hcl hc
  exact ⟨post, h1.symm⟩

/-- Neither list contains the first element of the other. -/
def Apart {α : Type} (c d : List α) : Prop := (∀ x ∈ c.head?, x ∉ d) ∧ (∀ x ∈ d.head?, x ∉ c)

theorem sequencesFrom_spec {α : Type} [DecidableEq α] {R : α → α → Prop} (hR : ∀ x y z, R x y → R x z → y = z)
    (n : ℕ) (cands : List (List α)) (used : List α) (hn : cands.length = n) (hc : ∀ c ∈ cands, ChainTo R used c)
    (hap : cands.Pairwise Apart) (hcl : ∀ x ∈ used, ∀ y, R x y → y ∈ used) :
    (∀ x, x ∈ (sequencesFrom n cands used).flatten ↔ ∃ c ∈ cands, x ∈ c) ∧
    (sequencesFrom n cands used).flatten.Nodup ∧
    (sequencesFrom n cands used).Pairwise (fun a b => b.length ≤ a.length) ∧
    (∀ s ∈ sequencesFrom n cands used, ∃ c ∈ cands, s <+: c) ∧
    (∀ pre s post, sequencesFrom n cands used = pre ++ s :: post → ChainTo R (used ++ pre.flatten) s) := by
  induction n generalizing cands used with
  | zero =>
    have : cands = [] := List.length_eq_zero_iff.mp hn
    subst this
    simp [sequencesFrom]
  | succ n ih =>
    have hperm := List.perm_insertionSort (fun a b : List α => b.length ≤ a.length) cands
    have hsort : (cands.insertionSort (fun a b => b.length ≤ a.length)).Pairwise (fun a b => b.length ≤ a.length) := by
      have : Std.Total (fun a b : List α => b.length ≤ a.length) := ⟨fun a b => le_total _ _⟩
      have : IsTrans (List α) (fun a b : List α => b.length ≤ a.length) := ⟨fun a b c h1 h2 => le_trans h2 h1⟩
      exact List.pairwise_insertionSort _ _
    unfold sequencesFrom
    generalize cands.insertionSort (fun a b => b.length ≤ a.length) = sorted at *
    cases sorted with
    | nil =>
      have : cands = [] := by simpa using hperm
      subst this
      cases hn
    | cons s rest =>
      simp only
      have hs := hc s (hperm.mem_iff.mp (by simp))
      have hcl' : ∀ x ∈ used ++ s, ∀ y, R x y → y ∈ used ++ s := by
        intro x hx y hxy
        rcases List.mem_append.mp hx with hx | hx
        · exact List.mem_append_left _ (hcl x hx y hxy)
        · obtain ⟨l, r, rfl⟩ := List.append_of_mem hx
          cases r with
          | nil => exact List.mem_append_left _ (hs.top x (by simp) y hxy)
          | cons b r =>
            have h1 := (List.isChain_append.mp hs.chain).2.1
            rw [hR x y b hxy (List.isChain_cons_cons.mp h1).1]
            simp
      have hap' : (s :: rest).Pairwise Apart := (hperm.pairwise_iff (fun h => ⟨h.2, h.1⟩)).mpr hap
      have hrest : ∀ c ∈ rest, ChainTo R used c := fun c hc' => hc c (hperm.mem_iff.mp (by simp [hc']))
      have hheads : ∀ c ∈ rest, ∀ x ∈ c.head?, x ∉ s := fun c hc' x hx => ((List.pairwise_cons.mp hap').1 c hc').2 x hx
      have hpre : ∀ c ∈ rest, c.filter (fun x => decide (x ∉ used ++ s)) <+: c := fun c hc' =>
        filter_prefix hcl' (hrest c hc').chain
      have hhead' : ∀ c ∈ rest, (c.filter (fun x => decide (x ∉ used ++ s))).head? = c.head? := by
        intro c hc'
        obtain ⟨post, h1⟩ := hpre c hc'
        have h2 := (chainTo_filter hR hcl' (hrest c hc') (hheads c hc')).nonempty
        generalize c.filter (fun x => decide (x ∉ used ++ s)) = d at *
        rw [← h1]
        cases d with
        | nil => exact absurd rfl h2
        | cons a d => rfl
      have hlen : rest.length = n := by
        have := hperm.length_eq
        simp [hn] at this
        exact this
      obtain ⟨i1, i2, i3, i4, i5⟩ := ih (rest.map (List.filter (fun x => decide (x ∉ used ++ s)))) (used ++ s)
        (by simpa using hlen)
        (by
          intro c hc'
          obtain ⟨d, hd, rfl⟩ := List.mem_map.mp hc'
          exact chainTo_filter hR hcl' (hrest d hd) (hheads d hd))
        (by
          rw [List.pairwise_map]
          refine List.Pairwise.imp_of_mem ?_ (List.pairwise_cons.mp hap').2
          intro a b ha hb hab
          refine ⟨?_, ?_⟩
          · rw [hhead' a ha]; exact fun x hx hm => hab.1 x hx (List.mem_filter.mp hm).1
          · rw [hhead' b hb]; exact fun x hx hm => hab.2 x hx (List.mem_filter.mp hm).1)
        hcl'
      have i1' : ∀ x, x ∈ (sequencesFrom n (rest.map (List.filter (fun x => decide (x ∉ used ++ s)))) (used ++ s)).flatten ↔
          ∃ c ∈ rest, x ∈ c ∧ x ∉ used ++ s := by
        intro x
        rw [i1 x]
        constructor
        · rintro ⟨c, hc', hx⟩
          obtain ⟨d, hd, rfl⟩ := List.mem_map.mp hc'
          have := List.mem_filter.mp hx
          exact ⟨d, hd, this.1, by simpa using this.2⟩
        · rintro ⟨c, hc', hx, hn'⟩
          exact ⟨_, List.mem_map.mpr ⟨c, hc', rfl⟩, List.mem_filter.mpr ⟨hx, by simpa using hn'⟩⟩
      generalize sequencesFrom n (rest.map (List.filter (fun x => decide (x ∉ used ++ s)))) (used ++ s) = r at *
      refine ⟨?_, ?_, ?_, ?_, ?_⟩
      · intro x
        rw [List.flatten_cons, List.mem_append, i1' x]
        constructor
        · rintro (hx | ⟨c, hc', hx, -⟩)
          · exact ⟨s, hperm.mem_iff.mp (by simp), hx⟩
          · exact ⟨c, hperm.mem_iff.mp (by simp [hc']), hx⟩
        · rintro ⟨c, hc', hx⟩
          by_cases hxs : x ∈ s
          · exact Or.inl hxs
          · rcases List.mem_cons.mp (hperm.mem_iff.mpr hc') with rfl | hc''
            · exact absurd hx hxs
            · exact Or.inr ⟨c, hc'', hx, by simp [hxs, (hrest c hc'').disj x hx]⟩
      · rw [List.flatten_cons, List.nodup_append]
        refine ⟨hs.nodup, i2, ?_⟩
        intro a ha b hb hab
        subst hab
        obtain ⟨c, -, -, h3⟩ := (i1' a).mp hb
        exact h3 (by simp [ha])
      · rw [List.pairwise_cons]
        refine ⟨?_, i3⟩
        intro a ha
        obtain ⟨c, hc', hp⟩ := i4 a ha
        obtain ⟨d, hd, rfl⟩ := List.mem_map.mp hc'
        exact le_trans hp.length_le (le_trans (List.length_filter_le _ _) ((List.pairwise_cons.mp hsort).1 d hd))
      · intro a ha
        rcases List.mem_cons.mp ha with rfl | ha
        · exact ⟨a, hperm.mem_iff.mp (by simp), List.prefix_refl _⟩
        · obtain ⟨c, hc', hp⟩ := i4 a ha
          obtain ⟨d, hd, rfl⟩ := List.mem_map.mp hc'
          exact ⟨d, hperm.mem_iff.mp (by simp [hd]), hp.trans (hpre d hd)⟩
      · intro pre a post heq
        cases pre with
        | nil =>
          simp only [List.nil_append, List.cons.injEq] at heq
          rw [← heq.1]
          simpa using hs
        | cons b pre =>
          simp only [List.cons_append, List.cons.injEq] at heq
          have := i5 pre a post heq.2
          rw [← heq.1, List.flatten_cons, ← List.append_assoc]
          exact this

end CQ
