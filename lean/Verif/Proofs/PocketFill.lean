import Mathlib.Algebra.Order.Archimedean.Basic
import Mathlib.Tactic.Linarith
import Verif.Spec.Pocket
import Verif.Props.Tree
import Verif.Proofs.Except
import Verif.Proofs.Region

/-! # Lemmas about `fill_pocket_contour_shrink` -/

set_option linter.unusedSectionVars false

namespace CQ

section
variable {α : Type} {R : α → List α → Prop}

theorem Unfolds.append {a b xs ys : List α} (h1 : Unfolds R a xs) (h2 : Unfolds R b ys) :
    Unfolds R (a ++ b) (xs ++ ys) := by
  induction h1 with
  | nil => exact h2
  | cons hn hc _ _ ih =>
    have := Unfolds.cons hn hc ih
    simpa using this

theorem Unfolds.split {a b zs : List α} (h : Unfolds R (a ++ b) zs) :
    ∃ xs ys, zs = xs ++ ys ∧ Unfolds R a xs ∧ Unfolds R b ys := by
  induction a generalizing zs with
  | nil => exact ⟨[], zs, rfl, .nil, h⟩
  | cons p a ih =>
    cases h with
    | @cons _ _ cs xs ys hn hc ht =>
      obtain ⟨xs', ys', rfl, h1, h2⟩ := ih ht
      exact ⟨p :: (xs ++ xs'), ys', by simp, .cons hn hc h1, h2⟩

theorem Unfolds.mono {S : α → List α → Prop} (hRS : ∀ p cs, R p cs → S p cs) {a xs : List α}
    (h : Unfolds R a xs) : Unfolds S a xs := by
  induction h with
  | nil => exact .nil
  | cons hn _ _ ih1 ih2 => exact .cons (hRS _ _ hn) ih1 ih2

/-- A process on objects that is, through `f`, a process on other objects. -/
theorem Unfolds.map {β : Type} {S : β → List β → Prop} (f : α → β) (hRS : ∀ p cs, R p cs → S (f p) (cs.map f)) {a xs : List α}
    (h : Unfolds R a xs) : Unfolds S (a.map f) (xs.map f) := by
  induction h with
  | nil => exact .nil
  | cons hn _ _ ih1 ih2 =>
    have := Unfolds.cons (hRS _ _ hn) ih1 ih2
    simpa using this

/-- Everything obtained is one of the first objects or obtained from something obtained. -/
theorem Unfolds.mem {a xs : List α} (h : Unfolds R a xs) {x : α} (hx : x ∈ xs) : x ∈ a ∨ ∃ p cs, p ∈ xs ∧ R p cs ∧ x ∈ cs := by
  induction h with
  | nil => cases hx
  | @cons p ps cs xs ys hn _ _ ih1 ih2 =>
    rcases List.mem_cons.mp hx with rfl | hx
    · exact .inl (by simp)
    rcases List.mem_append.mp hx with hx | hx
    · rcases ih1 hx with h1 | ⟨q, ds, h1, h2, h3⟩
      · exact .inr ⟨p, cs, by simp, hn, h1⟩
      · exact .inr ⟨q, ds, by simp [h1], h2, h3⟩
    · rcases ih2 hx with h1 | ⟨q, ds, h1, h2, h3⟩
      · exact .inl (by simp [h1])
      · exact .inr ⟨q, ds, by simp [h1], h2, h3⟩

/-- If everything that follows a contour is smaller by at least `δ`, the process ends. -/
theorem unfolds_of_measure {Good : α → Prop} {μ : α → ℚ} {δ : ℚ} (hδ : 0 < δ) (h0 : ∀ p, Good p → 0 ≤ μ p)
    (hR : ∀ p, Good p → ∃ cs, R p cs ∧ ∀ c ∈ cs, Good c ∧ μ c + δ ≤ μ p) (ps : List α) (hps : ∀ p ∈ ps, Good p) :
    ∃ xs, Unfolds R ps xs := by
  have one : ∀ (k : ℕ) (p : α), Good p → μ p < k * δ → ∃ xs, Unfolds R [p] xs := by
    intro k
    induction k with
    | zero => intro p hg hp; have := h0 p hg; simp at hp; linarith
    | succ k ih =>
      intro p hg hp
      obtain ⟨cs, hc, hs⟩ := hR p hg
      have : ∀ l : List α, (∀ c ∈ l, c ∈ cs) → ∃ xs, Unfolds R l xs := by
        intro l
        induction l with
        | nil => intro _; exact ⟨[], .nil⟩
        | cons c l ihl =>
          intro hl
          obtain ⟨ys, hy⟩ := ihl (fun x hx => hl x (by simp [hx]))
          have h1 := hs c (hl c (by simp))
          obtain ⟨xs, hx⟩ := ih c h1.1 (by push_cast at hp; linarith)
          exact ⟨xs ++ ys, hx.append hy⟩
      obtain ⟨xs, hx⟩ := this cs (fun _ h => h)
      exact ⟨_, .cons hc hx .nil⟩
  induction ps with
  | nil => exact ⟨[], .nil⟩
  | cons p ps ih =>
    obtain ⟨ys, hy⟩ := ih (fun q hq => hps q (by simp [hq]))
    obtain ⟨k, hk⟩ := exists_nat_gt (μ p / δ)
    obtain ⟨xs, hx⟩ := one k p (hps p (by simp)) (by rwa [div_lt_iff₀ hδ] at hk)
    exact ⟨xs ++ ys, hx.append hy⟩

end

/-- The graph of a function that may raise. -/
def Graph {α : Type} (next : α → Except Err (List α)) (p : α) (cs : List α) : Prop := next p = .ok cs

abbrev FTree (α : Type) := CTree (ℕ × α)

/-- The node at a position has not been locked. -/
def isOpen {α : Type} (t : FTree α) (i : ℕ) : Bool := match t[i]? with | some n => !n.locked | none => false

/-- The leaves that are not locked. -/
def openLeaves {α : Type} (t : FTree α) : List ℕ := t.leaves.filter (isOpen t)

def pathAt {α : Type} [Inhabited α] (t : FTree α) (i : ℕ) : α := match t[i]? with | some n => n.obj.2 | none => default

def openPaths {α : Type} [Inhabited α] (t : FTree α) : List α := (openLeaves t).map (pathAt t)

def allPaths {α : Type} (t : FTree α) : List α := t.map (fun n => n.obj.2)

structure FillInv {α : Type} (next : α → Except Err (List α)) (t : FTree α) : Prop where
  built : Built t
  ids : ∀ (k : ℕ) (n : TNode (ℕ × α)), t[k]? = some n → n.obj.1 = k
  link : ∀ (k p : ℕ) (n : TNode (ℕ × α)), t[k]? = some n → n.parent = some p →
    ∃ m cs, t[p]? = some m ∧ next m.obj.2 = .ok cs ∧ n.obj.2 ∈ cs

section
variable {α : Type} [Inhabited α] {next : α → Except Err (List α)}

theorem nextUnlocked_eq (t : FTree α) : t.nextUnlocked = (openLeaves t).head? := by
  unfold CTree.nextUnlocked openLeaves
  rw [List.head?_filter]
  congr 1
  funext i
  unfold isOpen
  cases t[i]? <;> rfl

theorem leaves_nodup {β : Type} (t : CTree β) : t.leaves.Nodup := List.nodup_range.filter _

theorem mem_openLeaves {t : FTree α} {i : ℕ} (h : i ∈ openLeaves t) : i < t.length ∧ i ∈ t.leaves := by
  have := List.mem_of_mem_filter h
  exact ⟨(mem_leaves.mp this).1, this⟩

/-! ### Locking -/

theorem lock_length (t : FTree α) (i : ℕ) : (t.lock i).length = t.length := by simp [CTree.lock]

theorem lock_get (t : FTree α) (i k : ℕ) : (t.lock i)[k]? = (t[k]?).map (fun n => if i = k then { n with locked := true } else n) := by
  unfold CTree.lock
  rw [List.getElem?_modify]
  by_cases h : i = k <;> simp [h]

theorem lock_parents (t : FTree α) (i : ℕ) : (t.lock i).parents = t.parents := by
  unfold CTree.parents CTree.lock
  induction t generalizing i with
  | nil => simp
  | cons a t ih => cases i with
    | zero => simp [List.modify_cons, List.filterMap_cons]
    | succ i => simp [List.modify_succ_cons, List.filterMap_cons, ih]

theorem lock_leaves (t : FTree α) (i : ℕ) : (t.lock i).leaves = t.leaves := by
  unfold CTree.leaves; rw [lock_parents, lock_length]

theorem lock_open (t : FTree α) (i k : ℕ) : isOpen (t.lock i) k = (isOpen t k && decide (i ≠ k)) := by
  unfold isOpen
  rw [lock_get]
  cases t[k]? with
  | none => simp
  | some n => by_cases h : i = k <;> simp [h]

theorem filter_ne_cons {i : ℕ} {rest : List ℕ} (h : (i :: rest).Nodup) :
    (i :: rest).filter (fun k => decide (i ≠ k)) = rest := by
  obtain ⟨h1, -⟩ := List.nodup_cons.mp h
  rw [List.filter_cons]
  simp only [ne_eq, not_true_eq_false, decide_false, Bool.false_eq_true, if_false]
  rw [List.filter_eq_self]
  intro k hk
  simp only [decide_not, Bool.not_eq_eq_eq_not, Bool.not_true, decide_eq_false_iff_not]
  rintro rfl
  exact h1 hk

theorem lock_openLeaves {t : FTree α} {i : ℕ} {rest : List ℕ} (h : openLeaves t = i :: rest) :
    openLeaves (t.lock i) = rest := by
  unfold openLeaves
  rw [lock_leaves]
  have : (fun k => isOpen (t.lock i) k) = fun k => (isOpen t k && decide (i ≠ k)) := funext (lock_open t i)
  rw [show isOpen (t.lock i) = fun k => (isOpen t k && decide (i ≠ k)) from this]
  rw [← filter_ne_cons (i := i) (rest := rest) (by rw [← h]; exact (leaves_nodup t).filter _), ← h]
  unfold openLeaves
  rw [List.filter_filter]
  apply List.filter_congr
  intro k _
  rw [Bool.and_comm]

theorem lock_pathAt (t : FTree α) (i k : ℕ) : pathAt (t.lock i) k = pathAt t k := by
  unfold pathAt
  rw [lock_get]
  cases t[k]? with
  | none => rfl
  | some n => by_cases h : i = k <;> simp [h]

theorem lock_allPaths (t : FTree α) (i : ℕ) : allPaths (t.lock i) = allPaths t := by
  apply List.ext_getElem?
  intro k
  unfold allPaths
  rw [List.getElem?_map, List.getElem?_map, lock_get]
  cases t[k]? with
  | none => rfl
  | some n => by_cases h : i = k <;> simp [h]

theorem lock_inv {t : FTree α} (h : FillInv next t) (i : ℕ) : FillInv next (t.lock i) := by
  refine ⟨.lock t i h.built, ?_, ?_⟩
  swap
  · intro k p n hk hp
    rw [lock_get] at hk
    obtain ⟨m, hm, rfl⟩ := Option.map_eq_some_iff.mp hk
    obtain ⟨m', cs, h1, h2, h3⟩ := h.link k p m hm (by split at hp <;> exact hp)
    refine ⟨if i = p then { m' with locked := true } else m', cs, ?_, ?_, ?_⟩
    · rw [lock_get, h1]; rfl
    · split <;> exact h2
    · split <;> exact h3
  intro k n hk
  rw [lock_get] at hk
  obtain ⟨m, hm, rfl⟩ := Option.map_eq_some_iff.mp hk
  have := h.ids k m hm
  split <;> simpa using this

/-! ### Branching -/

theorem tagged_get (n : ℕ) (os : List α) (k : ℕ) :
    (tagged n os)[k]? = (os[k]?).map (fun o => (n + k, o)) := by
  induction os generalizing n k with
  | nil => simp [tagged]
  | cons o os ih =>
    cases k with
    | zero => simp [tagged]
    | succ k =>
      simp only [tagged, List.getElem?_cons_succ, ih]
      rw [show n + 1 + k = n + (k + 1) by omega]

theorem tagged_length (n : ℕ) (os : List α) : (tagged n os).length = os.length := by
  induction os generalizing n with
  | nil => rfl
  | cons o os ih => simp [tagged, ih]

theorem branch_length (t : FTree α) (i : ℕ) (xs : List (ℕ × α)) :
    (t.branch i xs).length = t.length + xs.length := by simp [CTree.branch]

theorem branch_get_old {t : FTree α} {i k : ℕ} {xs : List (ℕ × α)} (h : k < t.length) :
    (t.branch i xs)[k]? = t[k]? := by
  unfold CTree.branch
  rw [List.getElem?_append_left h]

theorem branch_get_new (t : FTree α) (i k : ℕ) (xs : List (ℕ × α)) :
    (t.branch i xs)[t.length + k]? = (xs[k]?).map (fun o => { obj := o, parent := some i }) := by
  unfold CTree.branch
  rw [List.getElem?_append_right (by omega), List.getElem?_map]
  simp

theorem branch_parents (t : FTree α) (i : ℕ) (xs : List (ℕ × α)) :
    (t.branch i xs).parents = t.parents ++ List.replicate xs.length i := by
  unfold CTree.parents CTree.branch
  rw [List.filterMap_append]
  congr 1
  induction xs with
  | nil => rfl
  | cons x xs ih => simp [List.replicate_succ, ih]

theorem parents_lt {t : FTree α} (h : TreeOK t) : ∀ p ∈ t.parents, p < t.length := by
  intro p hp
  obtain ⟨n, hn, hp⟩ := List.mem_filterMap.mp hp
  obtain ⟨k, hk⟩ := List.mem_iff_getElem?.mp hn
  have h1 := h k p (parentOf_some.mpr ⟨n, hk, hp⟩)
  have h2 := (List.getElem?_eq_some_iff.mp hk).1
  omega

theorem branch_leaves {t : FTree α} (h : TreeOK t) {i : ℕ} (hi : i < t.length) {xs : List (ℕ × α)} (hx : xs ≠ []) :
    (t.branch i xs).leaves = t.leaves.filter (fun k => decide (i ≠ k)) ++ (List.range xs.length).map (t.length + ·) := by
  unfold CTree.leaves
  rw [branch_length, branch_parents, List.range_add, List.filter_append]
  congr 1
  · rw [List.filter_filter]
    apply List.filter_congr
    intro k _
    have : i ∈ List.replicate xs.length i := by
      rw [List.mem_replicate]
      exact ⟨by simpa using hx, rfl⟩
    rw [Bool.eq_iff_iff]
    simp only [List.mem_append, List.mem_replicate, decide_eq_true_eq, Bool.and_eq_true, not_or, ne_eq]
    constructor
    · rintro ⟨h1, h2⟩
      exact ⟨fun hik => h2 ⟨by simpa using hx, hik.symm⟩, h1⟩
    · rintro ⟨h1, h2⟩
      exact ⟨h2, fun h3 => h1 h3.2.symm⟩
  · rw [List.filter_eq_self]
    intro k hk
    obtain ⟨m, -, rfl⟩ := List.mem_map.mp hk
    simp only [List.mem_append, List.mem_replicate, decide_eq_true_eq, not_or]
    refine ⟨fun hp => ?_, fun hp => ?_⟩
    · have := parents_lt h _ hp; omega
    · omega

theorem branch_open_old {t : FTree α} {i k : ℕ} {xs : List (ℕ × α)} (h : k < t.length) :
    isOpen (t.branch i xs) k = isOpen t k := by
  unfold isOpen; rw [branch_get_old h]

theorem branch_openLeaves {t : FTree α} (hb : FillInv next t) {i : ℕ} {rest : List ℕ} (h : openLeaves t = i :: rest)
    {os : List α} (hos : os ≠ []) :
    openLeaves (t.branch i (tagged t.length os)) = rest ++ (List.range os.length).map (t.length + ·) := by
  have hi := (mem_openLeaves (by rw [h]; simp : i ∈ openLeaves t)).1
  have hx : tagged t.length os ≠ [] := by
    intro h'
    have := congrArg List.length h'
    rw [tagged_length] at this
    exact hos (List.eq_nil_of_length_eq_zero this)
  unfold openLeaves
  rw [branch_leaves (built_ok hb.built) hi hx, List.filter_append, tagged_length]
  congr 1
  · rw [← filter_ne_cons (i := i) (rest := rest) (by rw [← h]; exact (leaves_nodup t).filter _), ← h]
    unfold openLeaves
    rw [List.filter_filter, List.filter_filter]
    apply List.filter_congr
    intro k hk
    rw [branch_open_old (mem_leaves.mp hk).1, Bool.and_comm]
  · rw [List.filter_eq_self]
    intro k hk
    obtain ⟨m, hm, rfl⟩ := List.mem_map.mp hk
    unfold isOpen
    rw [branch_get_new, tagged_get, List.getElem?_eq_getElem (List.mem_range.mp hm)]
    rfl

theorem branch_pathAt_old {t : FTree α} {i k : ℕ} {xs : List (ℕ × α)} (h : k < t.length) :
    pathAt (t.branch i xs) k = pathAt t k := by
  unfold pathAt; rw [branch_get_old h]

theorem branch_openPaths {t : FTree α} (hb : FillInv next t) {i : ℕ} {rest : List ℕ} (h : openLeaves t = i :: rest)
    {os : List α} (hos : os ≠ []) :
    openPaths (t.branch i (tagged t.length os)) = rest.map (pathAt t) ++ os := by
  unfold openPaths
  rw [branch_openLeaves hb h hos, List.map_append]
  congr 1
  · apply List.map_congr_left
    intro k hk
    exact branch_pathAt_old (mem_openLeaves (by rw [h]; simp [hk] : k ∈ openLeaves t)).1
  · apply List.ext_getElem?
    intro k
    rw [List.map_map, List.getElem?_map]
    by_cases hk : k < os.length
    · rw [List.getElem?_range hk]
      simp only [Option.map_some, Function.comp]
      unfold pathAt
      rw [branch_get_new, tagged_get, List.getElem?_eq_getElem hk]
      rfl
    · rw [List.getElem?_eq_none (by simpa using hk), List.getElem?_eq_none (by simpa using hk)]
      rfl

theorem branch_allPaths (t : FTree α) (i : ℕ) (os : List α) :
    allPaths (t.branch i (tagged t.length os)) = allPaths t ++ os := by
  unfold allPaths CTree.branch
  rw [List.map_append, List.map_map]
  congr 1
  generalize t.length = n
  induction os generalizing n with
  | nil => rfl
  | cons o os ih => simp [tagged, ih]

theorem branch_inv {t : FTree α} (h : FillInv next t) {i : ℕ} (hi : i < t.length) {os : List α}
    (hn : next (pathAt t i) = .ok os) : FillInv next (t.branch i (tagged t.length os)) := by
  refine ⟨.branch t i _ h.built hi, ?_, ?_⟩
  swap
  · intro k p n hk hp
    by_cases hlt : k < t.length
    · rw [branch_get_old hlt] at hk
      obtain ⟨m, cs, h1, h2, h3⟩ := h.link k p n hk hp
      exact ⟨m, cs, by rw [branch_get_old (List.getElem?_eq_some_iff.mp h1).1]; exact h1, h2, h3⟩
    · obtain ⟨m, rfl⟩ : ∃ m, k = t.length + m := ⟨k - t.length, by omega⟩
      rw [branch_get_new, tagged_get] at hk
      cases ho : os[m]? with
      | none => rw [ho] at hk; cases hk
      | some o =>
        rw [ho] at hk
        cases hk
        cases hp
        refine ⟨t[i], os, by rw [branch_get_old hi, List.getElem?_eq_getElem hi], ?_, List.mem_of_getElem? ho⟩
        rw [← hn]; unfold pathAt; rw [List.getElem?_eq_getElem hi]
  intro k n hk
  by_cases hlt : k < t.length
  · rw [branch_get_old hlt] at hk
    exact h.ids k n hk
  · obtain ⟨m, rfl⟩ : ∃ m, k = t.length + m := ⟨k - t.length, by omega⟩
    rw [branch_get_new, tagged_get] at hk
    cases ho : os[m]? with
    | none => rw [ho] at hk; cases hk
    | some o =>
      rw [ho] at hk
      cases hk
      rfl

/-! ### The loop -/

/-- One round. -/
theorem fillLoop_step {t : FTree α} {i : ℕ} {rest : List ℕ} (ho : openLeaves t = i :: rest) (n : ℕ) :
    ∃ nd, t[i]? = some nd ∧ nd.obj.2 = pathAt t i ∧
      fillLoop next (n + 1) t = (next (pathAt t i)) >>= fun os =>
        fillLoop next n (if os ≠ [] then t.branch i (tagged t.length os) else t.lock i) := by
  have hi := (mem_openLeaves (by rw [ho]; simp : i ∈ openLeaves t)).1
  refine ⟨t[i], List.getElem?_eq_getElem hi, ?_, ?_⟩
  · unfold pathAt; rw [List.getElem?_eq_getElem hi]
  · rw [fillLoop, nextUnlocked_eq, ho]
    simp only [List.head?_cons, List.getElem?_eq_getElem hi]
    have : pathAt t i = t[i].obj.2 := by unfold pathAt; rw [List.getElem?_eq_getElem hi]
    rw [this]

theorem after_step {t : FTree α} (hb : FillInv next t) {i : ℕ} {rest : List ℕ} (ho : openLeaves t = i :: rest)
    {os : List α} (hn : next (pathAt t i) = .ok os) :
    let t' := if os ≠ [] then t.branch i (tagged t.length os) else t.lock i
    FillInv next t' ∧ openPaths t' = rest.map (pathAt t) ++ os ∧ allPaths t' = allPaths t ++ os := by
  have hi := (mem_openLeaves (by rw [ho]; simp : i ∈ openLeaves t)).1
  by_cases h : os = []
  · subst h
    simp only [ne_eq, not_true_eq_false, if_false, List.append_nil]
    refine ⟨lock_inv hb i, ?_, lock_allPaths t i⟩
    unfold openPaths
    rw [lock_openLeaves ho]
    exact List.map_congr_left (fun k _ => lock_pathAt t i k)
  · simp only [ne_eq, h, not_false_eq_true, if_true]
    exact ⟨branch_inv hb hi hn, branch_openPaths hb ho h, branch_allPaths t i os⟩

theorem fillLoop_sound {n : ℕ} {t t' : FTree α} (hb : FillInv next t) (h : fillLoop next n t = .ok t') :
    FillInv next t' ∧ ∃ ys, Unfolds (Graph next) (openPaths t) ys ∧
      ∀ done, (allPaths t).Perm (done ++ openPaths t) → (allPaths t').Perm (done ++ ys) := by
  induction n generalizing t with
  | zero => cases h
  | succ n ih =>
    cases ho : openLeaves t with
    | nil =>
      rw [fillLoop, nextUnlocked_eq, ho] at h
      cases h
      refine ⟨hb, [], ?_, ?_⟩
      · unfold openPaths; rw [ho]; exact .nil
      · intro done hp
        unfold openPaths at hp
        rw [ho] at hp
        simpa using hp
    | cons i rest =>
      obtain ⟨nd, -, -, hstep⟩ := fillLoop_step (next := next) ho n
      rw [hstep] at h
      obtain ⟨os, hn, h⟩ := bind_ok.mp h
      obtain ⟨g1, g2, g3⟩ := after_step hb ho hn
      obtain ⟨i1, zs, i2, i3⟩ := ih g1 h
      rw [g2] at i2 i3
      obtain ⟨ys, xs, rfl, u1, u2⟩ := i2.split
      have hop : openPaths t = pathAt t i :: rest.map (pathAt t) := by unfold openPaths; rw [ho]; rfl
      refine ⟨i1, pathAt t i :: (xs ++ ys), ?_, ?_⟩
      · rw [hop]; exact .cons hn u2 u1
      · intro done hp
        rw [hop] at hp
        have := i3 (done ++ [pathAt t i]) (by
          rw [g3]
          refine (hp.append_right os).trans ?_
          simp)
        refine this.trans ?_
        rw [List.append_assoc]
        refine List.Perm.append_left done ?_
        simp only [List.singleton_append]
        exact (List.perm_append_comm).cons _

theorem fillLoop_total {t : FTree α} (hb : FillInv next t) {ys : List α} (hu : Unfolds (Graph next) (openPaths t) ys) {n : ℕ}
    (hn : ys.length < n) : ∃ t', fillLoop next n t = .ok t' := by
  induction n generalizing t ys with
  | zero => omega
  | succ n ih =>
    cases ho : openLeaves t with
    | nil => exact ⟨t, by rw [fillLoop, nextUnlocked_eq, ho]; rfl⟩
    | cons i rest =>
      obtain ⟨nd, -, -, hstep⟩ := fillLoop_step (next := next) ho n
      rw [hstep]
      have hop : openPaths t = pathAt t i :: rest.map (pathAt t) := by unfold openPaths; rw [ho]; rfl
      rw [hop] at hu
      cases hu with
      | @cons _ _ os xs zs hnx hc ht =>
        obtain ⟨g1, g2, g3⟩ := after_step hb ho hnx
        rw [show next (pathAt t i) = .ok os from hnx]
        exact ih g1 (ys := zs ++ xs) (by rw [g2]; exact ht.append hc) (by simp at hn ⊢; omega)

theorem fillLoop_mono {n m : ℕ} {t t' : FTree α} (h : fillLoop next n t = .ok t') (hm : n ≤ m) :
    fillLoop next m t = .ok t' := by
  induction n generalizing m t with
  | zero => cases h
  | succ n ih =>
    obtain ⟨m, rfl⟩ : ∃ k, m = k + 1 := ⟨m - 1, by omega⟩
    rw [fillLoop] at h ⊢
    cases hnu : t.nextUnlocked with
    | none => rw [hnu] at h; exact h
    | some i =>
      rw [hnu] at h
      simp only at h ⊢
      cases hi : t[i]? with
      | none => rw [hi] at h; cases h
      | some nd =>
        rw [hi] at h
        simp only at h ⊢
        obtain ⟨os, h1, h2⟩ := bind_ok.mp h
        rw [h1]
        exact ih h2 (by omega)

theorem init_inv (o : α) : FillInv next (CTree.init ((0 : ℕ), o)) := by
  refine ⟨.init _, ?_, ?_⟩
  · intro k n hk
    cases k with
    | zero => cases hk; rfl
    | succ k => simp [CTree.init] at hk
  · intro k p n hk hp
    cases k with
    | zero => cases hk; cases hp
    | succ k => simp [CTree.init] at hk

theorem init_openPaths (o : α) : openPaths (CTree.init ((0 : ℕ), o)) = [o] := rfl

theorem init_allPaths (o : α) : allPaths (CTree.init ((0 : ℕ), o)) = [o] := rfl

theorem inv_nodup {t : FTree α} (h : FillInv next t) : t.objs.Nodup := by
  unfold CTree.objs
  rw [List.nodup_iff_getElem?_ne_getElem?]
  intro i k hik hk
  rw [List.getElem?_map, List.getElem?_map]
  simp only [List.length_map] at hk
  rw [List.getElem?_eq_getElem hk, List.getElem?_eq_getElem (by omega)]
  simp only [Option.map_some, ne_eq, Option.some.injEq]
  intro he
  have h1 := h.ids i _ (List.getElem?_eq_getElem (by omega))
  have h2 := h.ids k _ (List.getElem?_eq_getElem hk)
  rw [he] at h1
  omega

end

end CQ
