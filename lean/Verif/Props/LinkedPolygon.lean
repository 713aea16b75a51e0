import Verif.Spec.ZigZag
import Verif.Model.LinkedPolygon
import Verif.Proofs.Except
import Verif.Proofs.Geometry
import Mathlib.Tactic.NormNum.RealSqrt

/-! # C62, C63: links along a boundary -/

namespace CQ

theorem pyRemove_ok {l l' : List Pt} {p : Pt} : pyRemove l p = .ok l' ↔ p ∈ l ∧ l' = l.erase p := by
  unfold pyRemove
  by_cases h : p ∈ l
  · simp [h, eq_comm]
  · simp [h]

theorem pyIndex_ok {l : List Pt} {p : Pt} {i : ℕ} : pyIndex l p = .ok i ↔ p ∈ l ∧ i = l.idxOf p := by
  unfold pyIndex
  by_cases h : p ∈ l
  · simp [h, eq_comm]
  · simp [h]

/-- A list around the first occurrence of a point. -/
theorem split_at {l : List Pt} {p : Pt} (h : p ∈ l) :
    l = l.take (l.idxOf p) ++ p :: l.drop (l.idxOf p + 1) := by
  have hi := List.idxOf_lt_length_of_mem h
  conv_lhs => rw [← List.take_append_drop (l.idxOf p) l]
  rw [List.drop_eq_getElem_cons hi, List.getElem_idxOf]

/-- Sum of the values of a function over a list. -/
def sumOver (f : Pt → ℚ) (l : List Pt) : ℚ := (l.map f).sum

theorem searchLinked_sum (avail : List Pt) (dist : Pt → ℚ) (l : List Pt) :
    (searchLinked avail dist l).1 = sumOver dist (searchLinked avail dist l).2 := by
  induction l with
  | nil => rfl
  | cons q qs ih =>
    unfold searchLinked
    by_cases h : q ∈ avail
    · simp [h, sumOver]
    · simp only [h, if_false]
      rw [ih]; simp [sumOver]

theorem searchLinked_cases (avail : List Pt) (dist : Pt → ℚ) (l : List Pt) :
    RunTo avail l (searchLinked avail dist l).2 ∨
      ((searchLinked avail dist l).2 = l ∧ ∀ p ∈ l, p ∉ avail) := by
  induction l with
  | nil => right; exact ⟨rfl, by simp⟩
  | cons q qs ih =>
    unfold searchLinked
    by_cases h : q ∈ avail
    · left
      simp only [h, if_true]
      exact ⟨[], q, qs, rfl, rfl, h, by simp⟩
    · simp only [h, if_false]
      rcases ih with ⟨pre, r, rest, h1, h2, h3, h4⟩ | ⟨h1, h2⟩
      · left
        refine ⟨q :: pre, r, rest, by simp [h1], by simp [← h2], h3, ?_⟩
        intro p hp
        rcases List.mem_cons.mp hp with rfl | hp
        · exact h
        · exact h4 p hp
      · right
        refine ⟨by rw [h1], ?_⟩
        intro p hp
        rcases List.mem_cons.mp hp with rfl | hp
        · exact h
        · exact h2 p hp

theorem searchLinked_run {avail : List Pt} (dist : Pt → ℚ) {l : List Pt} (h : ∃ p ∈ l, p ∈ avail) :
    RunTo avail l (searchLinked avail dist l).2 := by
  rcases searchLinked_cases avail dist l with h' | ⟨-, h'⟩
  · exact h'
  · obtain ⟨p, hp, ha⟩ := h
    exact absurd ha (h' p hp)

/-! ### C62 -/

theorem nearestLinked_ok {lp lp' : LinkedPolygon} {p : Pt} {path : List Pt}
    (h : lp.nearestLinked p = .ok (some path, lp')) :
    p ∈ lp.avail ∧ p ∈ lp.polygon ∧
      path = chooseLink
        (searchLinked (lp.avail.erase p) (fun q => dist2 p q)
          (lp.polygon.drop (lp.polygon.idxOf p + 1) ++ lp.polygon.take (lp.polygon.idxOf p)))
        (searchLinked (lp.avail.erase p) (fun q => dist2 q p)
          (lp.polygon.drop (lp.polygon.idxOf p + 1) ++ lp.polygon.take (lp.polygon.idxOf p)).reverse) ∧
      ∃ q, path.getLast? = some q ∧ q ∈ lp.avail.erase p ∧ lp' = { lp with avail := (lp.avail.erase p).erase q } := by
  unfold LinkedPolygon.nearestLinked at h
  obtain ⟨av, h1, h⟩ := bind_ok.mp h
  obtain ⟨hp, rfl⟩ := pyRemove_ok.mp h1
  split at h
  · cases h
  · obtain ⟨i, h2, h⟩ := bind_ok.mp h
    obtain ⟨hpp, rfl⟩ := pyIndex_ok.mp h2
    simp only [takeLink] at h
    split at h
    · cases h
    · rename_i q hq
      obtain ⟨av, h3, h⟩ := bind_ok.mp h
      obtain ⟨hm, rfl⟩ := pyRemove_ok.mp h3
      cases h
      exact ⟨hp, hpp, rfl, q, hq, hm, rfl⟩

/-- C62.  The link returned is a contiguous run of boundary vertices, forwards or backwards, that starts next to the entry
point and ends at the first point in that direction that is linked and not yet used; entry and exit are used up, nothing
else changes. -/
theorem C62_link {lp lp' : LinkedPolygon} {p : Pt} {path : List Pt}
    (h : lp.nearestLinked p = .ok (some path, lp')) :
    BoundaryLink lp.polygon (lp.avail.erase p) p path ∧ p ∈ lp.avail ∧
      ∃ q, path.getLast? = some q ∧ q ∈ lp.avail.erase p ∧
        lp' = { lp with avail := (lp.avail.erase p).erase q } := by
  obtain ⟨h1, h2, h3, q, h4, h5, h6⟩ := nearestLinked_ok h
  refine ⟨⟨_, _, split_at h2, ?_⟩, h1, q, h4, h5, h6⟩
  unfold chooseLink at h3
  have key : ∀ (dist : Pt → ℚ) (l : List Pt), path = (searchLinked (lp.avail.erase p) dist l).2 →
      RunTo (lp.avail.erase p) l path := by
    intro dist l he
    rcases searchLinked_cases (lp.avail.erase p) dist l with h' | ⟨h7, h8⟩
    · rw [he]; exact h'
    · rw [he, h7] at h4
      exact absurd h5 (h8 q (List.mem_of_getLast? h4))
  split at h3
  · left; exact key _ _ h3
  · right; exact key _ _ h3

/-- C62.  There is an answer for every unused linked point of the boundary: no link exactly if it is the last one. -/
theorem C62_total {lp : LinkedPolygon} {p : Pt} (hp : p ∈ lp.avail) (hsub : ∀ q ∈ lp.avail, q ∈ lp.polygon)
    (hn : lp.avail.Nodup) :
    (lp.avail = [p] → lp.nearestLinked p = .ok (none, { lp with avail := [] })) ∧
      (lp.avail ≠ [p] → ∃ path lp', lp.nearestLinked p = .ok (some path, lp')) := by
  have hrem : pyRemove lp.avail p = .ok (lp.avail.erase p) := pyRemove_ok.mpr ⟨hp, rfl⟩
  constructor
  · intro h
    unfold LinkedPolygon.nearestLinked
    rw [hrem, ok_bind, h]
    simp
  · intro h
    have hne : lp.avail.erase p ≠ [] := by
      intro he
      apply h
      have := List.perm_cons_erase hp
      rw [he] at this
      exact List.perm_singleton.mp this
    have hi : pyIndex lp.polygon p = .ok (lp.polygon.idxOf p) := pyIndex_ok.mpr ⟨hsub p hp, rfl⟩
    unfold LinkedPolygon.nearestLinked
    rw [hrem, ok_bind, if_neg hne, hi, ok_bind]
    have hsp := split_at (hsub p hp)
    obtain ⟨a, ha⟩ := List.exists_mem_of_ne_nil _ hne
    have ha1 := (hn.mem_erase_iff.mp ha)
    have hm : a ∈ lp.polygon.drop (lp.polygon.idxOf p + 1) ++ lp.polygon.take (lp.polygon.idxOf p) := by
      have := hsub a ha1.2
      rw [hsp] at this
      simp only [List.mem_append, List.mem_cons] at this ⊢
      rcases this with h | h | h
      · exact .inr h
      · exact absurd h ha1.1
      · exact .inl h
    have r1 := searchLinked_run (fun q => dist2 p q) ⟨a, hm, ha⟩
    have r2 := searchLinked_run (fun q => dist2 q p) ⟨a, List.mem_reverse.mpr hm, ha⟩
    have key : ∀ {l s : List Pt}, RunTo (lp.avail.erase p) l s →
        ∃ path lp', takeLink lp (lp.avail.erase p) s = .ok (some path, lp') := by
      rintro l s ⟨pre, q, rest, rfl, -, hq, -⟩
      refine ⟨pre ++ [q], { lp with avail := (lp.avail.erase p).erase q }, ?_⟩
      simp only [takeLink, List.getLast?_append, List.getLast?_singleton, Option.some_or]
      rw [pyRemove_ok.mpr ⟨hq, rfl⟩, ok_bind]
    dsimp only [chooseLink]
    split
    · exact key r1
    · exact key r2

/-! ### C63 -/

/-- C63.  What holds of the choice: of the two links the one with the smaller sum of the squared distances of its points
*from the entry point* is taken (backwards if they are equal). -/
theorem C63_sum_of_squares_partial {lp lp' : LinkedPolygon} {p : Pt} {path : List Pt}
    (h : lp.nearestLinked p = .ok (some path, lp')) (hsub : ∀ q ∈ lp.avail, q ∈ lp.polygon) (hn : lp.avail.Nodup) :
    ∃ before after f b, lp.polygon = before ++ p :: after ∧ RunTo (lp.avail.erase p) (after ++ before) f ∧
      RunTo (lp.avail.erase p) (after ++ before).reverse b ∧
      (path = f ∧ sumOver (sqDist p) f < sumOver (sqDist p) b ∨ path = b ∧ sumOver (sqDist p) b ≤ sumOver (sqDist p) f) := by
  obtain ⟨h1, h2, h3, q, h4, h5, -⟩ := nearestLinked_ok h
  have hsp := split_at h2
  have hq := hn.mem_erase_iff.mp h5
  have hm : q ∈ lp.polygon.drop (lp.polygon.idxOf p + 1) ++ lp.polygon.take (lp.polygon.idxOf p) := by
    have := hsub q hq.2
    rw [hsp] at this
    simp only [List.mem_append, List.mem_cons] at this ⊢
    rcases this with h | h | h
    · exact .inr h
    · exact absurd h hq.1
    · exact .inl h
  refine ⟨_, _, _, _, hsp, searchLinked_run (fun q => dist2 p q) ⟨q, hm, h5⟩,
    searchLinked_run (fun q => dist2 q p) ⟨q, List.mem_reverse.mpr hm, h5⟩, ?_⟩
  have e1 : (fun q => dist2 p q) = sqDist p := by funext q; exact dist2_eq p q
  have e2 : (fun q => dist2 q p) = sqDist p := by funext q; rw [dist2_eq, sqDist_comm]
  rw [h3]
  unfold chooseLink
  rw [searchLinked_sum, searchLinked_sum, e1, e2]
  split
  · rename_i h; exact .inl ⟨rfl, h⟩
  · rename_i h; exact .inr ⟨rfl, not_lt.mp h⟩

/-- C63.  If the neighbours of the entry point on both sides are unused linked points, the nearer one is taken. -/
theorem C63_neighbours_partial {lp lp' : LinkedPolygon} {p a b : Pt} {path before after : List Pt}
    (h : lp.nearestLinked p = .ok (some path, lp')) (hpoly : lp.polygon = before ++ p :: after) (hb : p ∉ before)
    (ha : (after ++ before).head? = some a) (hz : (after ++ before).getLast? = some b) (hav : a ∈ lp.avail.erase p)
    (hbv : b ∈ lp.avail.erase p) :
    (path = [a] ∧ pathLength [p, a] ≤ pathLength [p, b]) ∨ (path = [b] ∧ pathLength [p, b] ≤ pathLength [p, a]) := by
  obtain ⟨h1, h2, h3, -⟩ := nearestLinked_ok h
  have hi : lp.polygon.idxOf p = before.length := by
    rw [hpoly, List.idxOf_append_of_notMem hb]; simp
  have hd : lp.polygon.drop (lp.polygon.idxOf p + 1) = after := by rw [hi, hpoly]; simp
  have ht : lp.polygon.take (lp.polygon.idxOf p) = before := by rw [hi, hpoly]; simp
  rw [hd, ht] at h3
  have hf : ∀ dist, searchLinked (lp.avail.erase p) dist (after ++ before) = (dist a, [a]) := by
    intro dist
    cases hl : after ++ before with
    | nil => rw [hl] at ha; cases ha
    | cons x xs =>
      rw [hl] at ha; cases ha
      simp [searchLinked, hav]
  have hr : ∀ dist, searchLinked (lp.avail.erase p) dist (after ++ before).reverse = (dist b, [b]) := by
    intro dist
    rw [← List.head?_reverse] at hz
    cases hl : (after ++ before).reverse with
    | nil => rw [hl] at hz; cases hz
    | cons x xs =>
      rw [hl] at hz; cases hz
      simp [searchLinked, hbv]
  rw [hf, hr] at h3
  unfold chooseLink at h3
  have mono : ∀ x y : Pt, sqDist p x ≤ sqDist p y → pathLength [p, x] ≤ pathLength [p, y] := by
    intro x y hxy
    simp only [pathLength, add_zero]
    exact Real.sqrt_le_sqrt (by exact_mod_cast hxy)
  have e2 : dist2 b p = sqDist p b := by rw [dist2_eq, sqDist_comm]
  simp only [dist2_eq p a, e2] at h3
  split at h3
  · rename_i hlt
    exact .inl ⟨h3, mono _ _ hlt.le⟩
  · rename_i hlt
    exact .inr ⟨h3, mono _ _ (not_lt.mp hlt)⟩

/-- A boundary with three linked points: the entry (0, 0), its neighbour (0, -3) and (-1, 1). -/
def linkedExample : LinkedPolygon where
  polygon := [⟨0, 0⟩, ⟨0, -3⟩, ⟨-1, 1⟩, ⟨0, 1⟩, ⟨1, 1⟩, ⟨1, 0⟩]
  linked := [⟨0, 0⟩, ⟨0, -3⟩, ⟨-1, 1⟩]
  avail := [⟨0, 0⟩, ⟨0, -3⟩, ⟨-1, 1⟩]

/-- The hypotheses of C62 and C63 hold for it. -/
example : (⟨0, 0⟩ : Pt) ∈ linkedExample.avail ∧ (∀ q ∈ linkedExample.avail, q ∈ linkedExample.polygon) ∧
    linkedExample.avail.Nodup ∧ linkedExample.avail ≠ [⟨0, 0⟩] := by decide +kernel

theorem linkedExample_link : linkedExample.nearestLinked ⟨0, 0⟩ =
    .ok (some [⟨1, 0⟩, ⟨1, 1⟩, ⟨0, 1⟩, ⟨-1, 1⟩], { linkedExample with avail := [⟨0, -3⟩] }) := by
  have : (match linkedExample.nearestLinked ⟨0, 0⟩ with
      | .ok r => decide (r = (some [⟨1, 0⟩, ⟨1, 1⟩, ⟨0, 1⟩, ⟨-1, 1⟩], { linkedExample with avail := [⟨0, -3⟩] }))
      | .error _ => false) = true := by decide +kernel
  cases h : linkedExample.nearestLinked ⟨0, 0⟩ with
  | error e => rw [h] at this; cases this
  | ok r => rw [h] at this; rw [of_decide_eq_true this]

/-- C63 fails: here the link of length 4 is taken although the link the other way, straight to (0, -3), has length 3.
(The code adds up squared distances from the entry point.) -/
theorem C63_violated : ∃ (lp lp' : LinkedPolygon) (p : Pt) (path other before after : List Pt),
    lp.nearestLinked p = .ok (some path, lp') ∧ lp.polygon = before ++ p :: after ∧
      RunTo (lp.avail.erase p) (after ++ before) other ∧ RunTo (lp.avail.erase p) (after ++ before).reverse path ∧
      pathLength (p :: other) = 3 ∧ pathLength (p :: path) = 4 := by
  refine ⟨_, _, _, _, [⟨0, -3⟩], [], [⟨0, -3⟩, ⟨-1, 1⟩, ⟨0, 1⟩, ⟨1, 1⟩, ⟨1, 0⟩], linkedExample_link, rfl, ?_, ?_, ?_, ?_⟩
  · exact ⟨[], ⟨0, -3⟩, _, rfl, rfl, by decide +kernel, by simp⟩
  · refine ⟨[⟨1, 0⟩, ⟨1, 1⟩, ⟨0, 1⟩], ⟨-1, 1⟩, [⟨0, -3⟩], rfl, rfl, by decide +kernel, by decide +kernel⟩
  · simp only [pathLength, sqDist]; norm_num
  · simp only [pathLength, sqDist]; norm_num

/-- A boundary on which both neighbours are linked. -/
example : ∃ path lp', ({ polygon := [⟨0, 0⟩, ⟨4, 0⟩, ⟨4, 4⟩, ⟨0, 3⟩], avail := [⟨0, 0⟩, ⟨4, 0⟩, ⟨0, 3⟩] } :
    LinkedPolygon).nearestLinked ⟨0, 0⟩ = .ok (some path, lp') ∧ path = [⟨0, 3⟩] := by
  obtain ⟨path, lp', h⟩ := (C62_total (lp := { polygon := [⟨0, 0⟩, ⟨4, 0⟩, ⟨4, 4⟩, ⟨0, 3⟩], avail := [⟨0, 0⟩, ⟨4, 0⟩, ⟨0, 3⟩] })
    (p := ⟨0, 0⟩) (by decide +kernel) (by decide +kernel) (by decide +kernel)).2 (by decide +kernel)
  refine ⟨path, lp', h, ?_⟩
  rcases C63_neighbours_partial (before := []) (after := [⟨4, 0⟩, ⟨4, 4⟩, ⟨0, 3⟩]) h rfl (by simp) rfl rfl
    (by decide +kernel) (by decide +kernel) with ⟨h, hl⟩ | ⟨h, -⟩
  · exfalso
    simp only [pathLength, sqDist] at hl
    norm_num at hl
  · exact h

end CQ
