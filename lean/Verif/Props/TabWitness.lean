import Verif.Props.TabPath

/-! # C51: a kernel meeting the hypotheses, examples, and the violation -/

namespace CQ

instance chainedDecidable : DecidablePred Chained := fun l => by
  induction l with
  | nil => unfold Chained; infer_instance
  | cons a l ih =>
    cases l with
    | nil => unfold Chained; infer_instance
    | cons b l =>
      have := ih
      unfold Chained
      infer_instance

/-- New identities. -/
def renumber : ℕ → List Edge → List Edge
  | _, [] => []
  | n, e :: es => { e with id := n } :: renumber (n + 1) es

theorem renumber_same (es : List Edge) : ∀ n, SameCurves es (renumber n es) := by
  induction es with
  | nil => intro n; exact .nil
  | cons e es ih => intro n; exact .cons ⟨n, rfl⟩ (ih (n + 1))

theorem renumber_ids (es : List Edge) : ∀ n, (∀ e ∈ renumber n es, n ≤ e.id) ∧
    (renumber n es).Pairwise (fun a b => a.id ≠ b.id) := by
  induction es with
  | nil => intro n; simp [renumber]
  | cons e es ih =>
    intro n
    obtain ⟨h1, h2⟩ := ih (n + 1)
    constructor
    · intro x hx
      rcases List.mem_cons.mp hx with rfl | hx
      · exact le_rfl
      · exact (Nat.le_succ n).trans (h1 x hx)
    · refine List.pairwise_cons.mpr ⟨?_, h2⟩
      intro x hx
      have := h1 x hx
      simp only
      omega

/-- A kernel that assembles exactly the connected lists of edges. -/
def strictCad : Cad := { flatCad with assemble := fun es => if Chained es then .ok (renumber 0 es) else .error .stdFail }

theorem strictCad_assembles : Assembles strictCad := fun es _ hc =>
  ⟨renumber 0 es, if_pos hc, renumber_same es 0, (renumber_ids es 0).2⟩

theorem lineEdge_flat {id : ℕ} {a b : Pt} {z len : ℚ} (h : len ≠ 0) : FlatEdge z (lineEdge id a b z len) where
  flat := by constructor <;> simp [lineEdge]
  consistent d := by simp [lineEdge, h]
  start := by simp [lineEdge]
  fin := by simp [lineEdge]

/-- A square with sides of length 6, tabs of width 1 and spacing 3 up to height `-1/2`, meets the hypotheses of
`C51_edge_tabs_partial`: two tabs and nine edges per side. -/
example : Assembles strictCad ∧ strictCad.zmin innerSquare = -1 ∧ (∀ e ∈ innerSquare, FlatEdge (-1) e) ∧
    (∀ e ∈ innerSquare, 0 < e.length) ∧ Chained innerSquare ∧ Closes innerSquare ∧
    ∃ t w', EdgeTabs.new 3 1 (1 / 2) = .ok t ∧ (3 : ℚ) * 1 < 2 * 3 ∧
      applyTabs strictCad (-1 / 2) (.edge t) innerSquare = .ok w' ∧ w'.length = 36 := by
  refine ⟨strictCad_assembles, by decide +kernel, ?_, by decide +kernel, by decide +kernel, ?_, ⟨3, 1, 1 / 2, none⟩, ?_⟩
  · intro e he
    simp only [innerSquare, outline, List.map_cons, List.map_nil, List.mem_cons, List.not_mem_nil, or_false] at he
    rcases he with rfl | rfl | rfl | rfl <;> exact lineEdge_flat (by norm_num)
  · intro a b ha hb; cases ha; cases hb; decide +kernel
  · have hm : (match applyTabs strictCad (-1 / 2) (.edge ⟨3, 1, 1 / 2, none⟩) innerSquare with
        | .ok w' => decide (w'.length = 36) | .error _ => false) = true := by decide +kernel
    cases h : applyTabs strictCad (-1 / 2) (.edge ⟨3, 1, 1 / 2, none⟩) innerSquare with
    | error e => rw [h] at hm; cases hm
    | ok w' =>
      rw [h] at hm
      exact ⟨w', by decide +kernel, by norm_num, rfl, by simpa using hm⟩

/-- The same square with three tabs around it meets those of `C51_wire_tabs_partial`. -/
example : (∀ pre e post, innerSquare = pre ++ e :: post → (3 : ℕ) = 1 ∨
      (pre.map Edge.length).sum + e.length + (1 : ℚ) / 2 < 24 ∨ ((3 : ℕ) - 1 : ℚ) * (24 / (3 : ℕ)) + 1 / 2 ≤ (pre.map Edge.length).sum) ∧
    (∀ pre post, innerSquare = pre ++ post → ∀ k : ℤ, (pre.map Edge.length).sum ≠ k * ((24 : ℚ) / (3 : ℕ)) - 1 / 2 ∧
      (pre.map Edge.length).sum ≠ k * ((24 : ℚ) / (3 : ℕ)) + 1 / 2) ∧
    strictCad.wireLength innerSquare = 24 ∧
    ∃ w', applyTabs strictCad (-1 / 2) (.wire ⟨3, 1, 1 / 2⟩) innerSquare = .ok w' ∧ w'.length = 16 := by
  refine ⟨?_, ?_, by decide +kernel, ?_⟩
  · intro pre e post h
    match pre, h with
    | [], h => cases h; right; left; decide +kernel
    | [_], h => cases h; right; left; decide +kernel
    | [_, _], h => cases h; right; left; decide +kernel
    | [_, _, _], h => cases h; right; right; decide +kernel
    | _ :: _ :: _ :: _ :: _ :: _, h => cases h
    | [_, _, _, _], h => cases h
  · have hno : ∀ (m k : ℤ), (6 * m : ℚ) ≠ k * ((24 : ℚ) / (3 : ℕ)) - 1 / 2 ∧ (6 * m : ℚ) ≠ k * ((24 : ℚ) / (3 : ℕ)) + 1 / 2 := by
      intro m k
      constructor <;> intro h
      · have : ((12 * m : ℤ) : ℚ) = ((16 * k - 1 : ℤ) : ℚ) := by push_cast at h ⊢; linarith
        have := Int.cast_injective this
        omega
      · have : ((12 * m : ℤ) : ℚ) = ((16 * k + 1 : ℤ) : ℚ) := by push_cast at h ⊢; linarith
        have := Int.cast_injective this
        omega
    intro pre post h k
    have hm : ∃ m : ℤ, (pre.map Edge.length).sum = 6 * m := by
      match pre, h with
      | [], h => exact ⟨0, by simp⟩
      | [_], h => cases h; exact ⟨1, by decide +kernel⟩
      | [_, _], h => cases h; exact ⟨2, by decide +kernel⟩
      | [_, _, _], h => cases h; exact ⟨3, by decide +kernel⟩
      | [_, _, _, _], h => cases h; exact ⟨4, by decide +kernel⟩
      | _ :: _ :: _ :: _ :: _ :: _, h => cases h
    obtain ⟨m, hm⟩ := hm
    rw [hm]
    exact hno m k
  · have hm : (match applyTabs strictCad (-1 / 2) (.wire ⟨3, 1, 1 / 2⟩) innerSquare with
        | .ok w' => decide (w'.length = 16) | .error _ => false) = true := by decide +kernel
    cases h : applyTabs strictCad (-1 / 2) (.wire ⟨3, 1, 1 / 2⟩) innerSquare with
    | error e => rw [h] at hm; cases hm
    | ok w' =>
      rw [h] at hm
      exact ⟨w', rfl, by simpa using hm⟩

/-- C51 is false: with one tab around a square that ends exactly at a corner, there is no vertical move at that corner, a
kernel that assembles connected edges only refuses, and the pass is cut without tabs: at depth 1 also inside the tab, whose
top is at depth `1/2`. -/
theorem C51_violated : Assembles strictCad ∧ strictCad.zmin innerSquare < -1 / 2 ∧ InZone 1 12 24 3 ∧
    applyTabs strictCad (-1 / 2) (.wire ⟨1, 12, 1 / 2⟩) innerSquare = .ok innerSquare ∧
    ∀ e, innerSquare.head? = some e → e.travel (3 / 6) = ⟨3, 0, -1⟩ := by
  have hz : strictCad.zmin innerSquare = -1 := by decide +kernel
  refine ⟨strictCad_assembles, by rw [hz]; norm_num, ⟨0, by norm_num, by norm_num⟩, ?_, ?_⟩
  · have hm : (match Tabs.transitions (.wire ⟨1, 12, 1 / 2⟩) (strictCad.wireLength innerSquare) innerSquare with
        | .ok tss => (match tabEdges (-1 / 2) innerSquare tss with
          | .ok new => decide (¬ Chained new)
          | .error _ => false)
        | .error _ => false) = true := by decide +kernel
    unfold applyTabs
    rw [if_neg (by rw [hz]; norm_num)]
    cases h1 : Tabs.transitions (.wire ⟨1, 12, 1 / 2⟩) (strictCad.wireLength innerSquare) innerSquare with
    | error e => rw [h1] at hm; cases hm
    | ok tss =>
      rw [h1] at hm
      simp only at hm
      rw [ok_bind]
      cases h2 : tabEdges (-1 / 2) innerSquare tss with
      | error e => rw [h2] at hm; cases hm
      | ok new =>
        rw [h2] at hm
        have hc : ¬ Chained new := by simpa using hm
        rw [ok_bind, show strictCad.assemble new = .error .stdFail from if_neg hc]
  · intro e he
    cases he
    decide +kernel

/-- A square at depth 3 with stepdown 1, tabs of height 1, meets the hypotheses of `C51_profile_partial`: three passes, of
which only the last one reaches below the tabs. -/
example : BoxMoves strictCad ∧ KeepsBelow strictCad millJob.top ∧ millJob.toolRadius = some 2 ∧
    offsetWire strictCad deepSquare (1 * 2) = .ok [deepSquare] ∧ WireOK deepSquare ∧ Chained deepSquare ∧
    (∀ e ∈ deepSquare, 0 < e.length) ∧ strictCad.zmin deepSquare = -3 ∧ (∀ e ∈ deepSquare, FlatEdge (-3) e) ∧
    (∀ w, NearestIsVertex strictCad w) ∧
    ∃ cs, profile strictCad millJob (innerSquare.map (Edge.up (-2))) 1 (some 1) (some (.edge ⟨3, 1, 1, none⟩)) = .ok cs ∧
      cs.length = 54 := by
  refine ⟨flatCad_boxMoves, flatCad_keepsBelow, by decide +kernel, ?_, wireOK_toLocal (wireOK_up innerSquare_ok _),
    by decide +kernel, by decide +kernel, by decide +kernel, ?_, fun _ _ _ h => (by cases h), ?_⟩
  · have hval : offsetValid strictCad deepSquare = true := by decide +kernel
    change Except.ok (circleBugWorkaround strictCad deepSquare ([deepSquare].filter (offsetValid strictCad))) = _
    rw [show [deepSquare].filter (offsetValid strictCad) = [deepSquare] from by simp [hval]]
    rfl
  · simp only [deepSquare, innerSquare, outline, List.map_cons, List.map_nil, List.mem_cons, List.not_mem_nil, or_false]
    rintro e (rfl | rfl | rfl | rfl) <;> refine ⟨⟨?_, ?_, ?_, ?_⟩, ?_, ?_, ?_⟩ <;>
      simp [Edge.toLocal, Edge.up, Vec.up, lineEdge, millJob, Job.init, Frame.xy, Frame.toLocal, Vec.sub, Vec.dot] <;> norm_num
  · have hm : (match profile strictCad millJob (innerSquare.map (Edge.up (-2))) 1 (some 1) (some (.edge ⟨3, 1, 1, none⟩)) with
        | .ok cs => decide (cs.length = 54) | .error _ => false) = true := by decide +kernel
    cases h : profile strictCad millJob (innerSquare.map (Edge.up (-2))) 1 (some 1) (some (.edge ⟨3, 1, 1, none⟩)) with
    | error e => rw [h] at hm; cases hm
    | ok cs =>
      rw [h] at hm
      exact ⟨cs, rfl, by simpa using hm⟩

end CQ
