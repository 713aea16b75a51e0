import Verif.Spec.Profile
import Verif.Proofs.Except
import Verif.Props.Wires

/-! # C46–C48: profiles -/

namespace CQ

theorem raised_up (dz : ℚ) (w : List Edge) : RaisedBy dz w (w.map (Edge.up dz)) := by
  unfold RaisedBy
  rw [List.forall₂_map_right_iff]
  refine List.forall₂_same.mpr fun e _ => ?_
  refine ⟨fun t => rfl, fun p => rfl, rfl, ⟨rfl, rfl⟩, rfl, rfl, rfl, rfl, rfl, rfl⟩

theorem leftBelow_iff {cad : Cad} {top : Frame} {w : List Edge} :
    leftBelow cad top w = true ↔ ∃ e ∈ cad.cutPlane top w, cad.centerZ e < 0 := by
  simp only [leftBelow, ne_eq, decide_eq_true_eq, List.filter_eq_nil_iff, not_forall, not_not, exists_prop]

theorem zmin_up {cad : Cad} (h : BoxMoves cad) {w : List Edge} (hw : w ≠ []) (dz : ℚ) :
    cad.zmin (w.map (Edge.up dz)) = cad.zmin w + dz := h _ _ _ hw (raised_up dz w)

/-- The loop appends the raised copies number `i + 1` to `n`. -/
theorem stepLayers_spec {cad : Cad} {top : Frame} (hb : BoxMoves cad) (hk : KeepsBelow cad top) {base : List Edge}
    (hne : base ≠ []) {s : ℚ} (hs : 0 < s) (rounds i : ℕ) :
    (cad.zmin base + (i + rounds : ℕ) * s < -1 / 1000 → stepLayers cad top base s rounds i = .error .runtimeError) ∧
    (0 < rounds → -1 / 1000 ≤ cad.zmin base + (i + rounds : ℕ) * s → ∃ m ls, stepLayers cad top base s rounds i = .ok ls ∧
      m < rounds ∧ List.Forall₂ (fun (k : ℕ) w => RaisedBy (k * s) base w) (List.range' (i + 1) m) ls ∧
      (∀ k : ℕ, i < k → k ≤ i + m → cad.zmin base + k * s < -1 / 1000) ∧
      -1 / 1000 ≤ cad.zmin base + (i + m + 1 : ℕ) * s) := by
  induction rounds generalizing i with
  | zero => exact ⟨fun _ => rfl, fun h => absurd h (lt_irrefl 0)⟩
  | succ r ih =>
    have hz : cad.zmin (base.map (Edge.up (s * (i + 1)))) = cad.zmin base + (i + 1 : ℕ) * s := by
      rw [zmin_up hb hne]; push_cast; ring
    by_cases hc : -1 / 1000 ≤ cad.zmin base + (i + 1 : ℕ) * s
    · constructor
      · intro h
        exfalso
        have : ((i + 1 : ℕ) : ℚ) * s ≤ ((i + (r + 1) : ℕ) : ℚ) * s := by
          apply mul_le_mul_of_nonneg_right _ hs.le
          exact_mod_cast by omega
        linarith
      · intro _ _
        refine ⟨0, [], ?_, by omega, by simp, fun k h1 h2 => by omega, by simpa using hc⟩
        simp only [stepLayers, hz, if_pos hc]
    · have hl : leftBelow cad top (base.map (Edge.up (s * (i + 1)))) = true :=
        leftBelow_iff.mpr (hk _ (by rw [hz]; exact not_le.mp hc))
      have hstep : stepLayers cad top base s (r + 1) i =
          (do
            let rest ← stepLayers cad top base s r (i + 1)
            .ok (base.map (Edge.up (s * (i + 1))) :: rest)) := by
        simp only [stepLayers, hz, if_neg hc, hl, if_true]
      obtain ⟨h1, h2⟩ := ih (i + 1)
      have he : (i + 1 + r : ℕ) = i + (r + 1) := by omega
      rw [he] at h1 h2
      constructor
      · intro h
        rw [hstep, h1 h]; rfl
      · intro _ h
        have hr : 0 < r := by
          rcases Nat.eq_zero_or_pos r with rfl | hr
          · exact absurd h hc
          · exact hr
        obtain ⟨m, ls, k1, k2, k3, k4, k5⟩ := h2 hr h
        refine ⟨m + 1, _ :: ls, by rw [hstep, k1]; rfl, by omega, ?_, ?_, ?_⟩
        · rw [List.range'_succ]
          refine List.Forall₂.cons ?_ k3
          have := raised_up (s * (i + 1)) base
          convert this using 1
          push_cast; ring
        · intro k ha hb'
          by_cases hk' : k = i + 1
          · rw [hk']; exact not_le.mp hc
          · exact k4 k (by omega) (by omega)
        · have : i + (m + 1) + 1 = i + 1 + m + 1 := by omega
          rw [this]; exact k5

/-- C46 (as far as it holds, see `C46_violated`: the top plane must not cut a pass away).  With a stepdown `s > 0` a
profile is cut in the `Passes` of the base wire.  If more than 101 passes would be needed, the profile is refused.  Without stepdown there is exactly one pass. -/
theorem C46_passes_partial {cad : Cad} {top : Frame} (hb : BoxMoves cad) (hk : KeepsBelow cad top) {base : List Edge}
    (hne : base ≠ []) {s : ℚ} (hs : 0 < s) :
    (cad.zmin base + 101 * s < -1 / 1000 → profileLayers cad top base (some s) = .error .runtimeError) ∧
    (-1 / 1000 ≤ cad.zmin base + 101 * s → ∃ layers, profileLayers cad top base (some s) = .ok layers ∧
      Passes cad s base layers) := by
  have hp : profileLayers cad top base (some s) = (do
        let ls ← stepLayers cad top base s 101 0
        .ok (base :: ls).reverse) := by simp only [profileLayers, hs.ne', if_false]
  obtain ⟨h1, h2⟩ := stepLayers_spec hb hk hne hs 101 0
  simp only [Nat.zero_add, Nat.cast_ofNat] at h1 h2
  constructor
  · intro h
    rw [hp, h1 h]; rfl
  · intro h
    obtain ⟨m, ls, k1, k2, k3, k4, k5⟩ := h2 (by norm_num) h
    have hf : List.Forall₂ (fun (k : ℕ) w => RaisedBy (k * s) base w) (List.range (m + 1)).reverse (base :: ls).reverse := by
      rw [List.forall₂_reverse_iff, List.range_eq_range', List.range'_succ]
      refine List.Forall₂.cons ?_ k3
      have := raised_up 0 base
      have he : base.map (Edge.up 0) = base := by
        rw [show Edge.up 0 = id from by funext e; simp [Edge.up, Vec.up], List.map_id]
      rw [he] at this
      simpa using this
    refine ⟨_, by rw [hp, k1]; rfl, m, by omega, hf, fun k ha hb' => k4 k ha hb', ?_, by simp⟩
    intro w hw
    have : RaisedBy ((m : ℕ) * s) base w := by
      generalize (base :: ls).reverse = layers at hf hw
      rw [List.range_succ, List.reverse_append] at hf
      simp only [List.reverse_cons, List.reverse_nil, List.nil_append, List.singleton_append] at hf
      cases hf with
      | cons h _ => simp only [List.head?_cons, Option.some.injEq] at hw; rw [← hw]; exact h
    rw [hb _ _ _ hne this]
    have h5 : ((m + 1 : ℕ) : ℚ) * s = m * s + s := by push_cast; ring
    rw [h5] at k5
    linarith

/-- C46, without stepdown (`None` or 0): one pass. -/
theorem C46_single_pass (cad : Cad) (top : Frame) (base : List Edge) :
    profileLayers cad top base none = .ok [base] ∧ profileLayers cad top base (some 0) = .ok [base] := ⟨rfl, rfl⟩

theorem stepLayers_bound (cad : Cad) (top : Frame) (base : List Edge) (s : ℚ) (rounds i : ℕ) :
    stepLayers cad top base s rounds i = .error .runtimeError ∨
      ∃ ls, stepLayers cad top base s rounds i = .ok ls ∧ ls.length < rounds := by
  induction rounds generalizing i with
  | zero => exact Or.inl rfl
  | succ r ih =>
    simp only [stepLayers]
    split
    · exact Or.inr ⟨[], rfl, by simp⟩
    · split
      · rcases ih (i + 1) with h | ⟨ls, h, hl⟩
        · left; rw [h]; rfl
        · right
          exact ⟨_, by rw [h]; rfl, by simpa using hl⟩
      · exact Or.inr ⟨[], rfl, by simp⟩

/-- C47.  For every wire, every CAD kernel and every stepdown (negative ones included), the computation of the passes
ends, with at most 101 passes or with the refusal `RuntimeError`. -/
theorem C47_bounded (cad : Cad) (top : Frame) (base : List Edge) (stepdown : Option ℚ) :
    profileLayers cad top base stepdown = .error .runtimeError ∨
      ∃ layers, profileLayers cad top base stepdown = .ok layers ∧ 1 ≤ layers.length ∧ layers.length ≤ 101 := by
  cases stepdown with
  | none => exact Or.inr ⟨[base], rfl, by simp, by simp⟩
  | some s =>
    unfold profileLayers
    by_cases hs : s = 0
    · exact Or.inr ⟨[base], by simp [hs], by simp, by simp⟩
    · simp only [hs, if_false]
      rcases stepLayers_bound cad top base s 101 0 with h | ⟨ls, h, hl⟩
      · left; rw [h]; rfl
      · right
        exact ⟨_, by rw [h]; rfl, by simp, by simp; omega⟩

/-- C47: a negative stepdown is refused for every wire that reaches below the surface. -/
theorem C47_negative {cad : Cad} {top : Frame} (hb : BoxMoves cad) (hk : KeepsBelow cad top) {base : List Edge}
    (hne : base ≠ []) {s : ℚ} (hs : s < 0) (hz : cad.zmin base < -1 / 1000) :
    profileLayers cad top base (some s) = .error .runtimeError := by
  have key : ∀ rounds i, stepLayers cad top base s rounds i = .error .runtimeError := by
    intro rounds
    induction rounds with
    | zero => intro i; rfl
    | succ r ih =>
      intro i
      have hz' : cad.zmin (base.map (Edge.up (s * (i + 1)))) < -1 / 1000 := by
        rw [zmin_up hb hne]
        have : s * ((i : ℚ) + 1) < 0 := mul_neg_of_neg_of_pos hs (by positivity)
        linarith
      simp only [stepLayers, if_neg (not_le.mpr hz'), leftBelow_iff.mpr (hk _ hz'), if_true, ih (i + 1)]
      rfl
  simp only [profileLayers, hs.ne, if_false, key]
  rfl

/-! ### Instances -/

/-- Lowest point of a wire with horizontal edges. -/
def lowest : List Edge → ℚ
  | [] => 0
  | [e] => (e.travel 0).z
  | e :: es => min (e.travel 0).z (lowest es)

/-- The edge lies in the plane. -/
def inPlane (f : Frame) (e : Edge) : Bool :=
  decide (((e.travel 0).sub f.origin).dot f.zDir = 0) && decide (((e.travel 1).sub f.origin).dot f.zDir = 0)

/-- A kernel for wires of horizontal straight edges: cutting with a plane removes the edges that lie in it. -/
def flatCad : Cad where
  veq := exactEq
  search := fun _ _ => none
  offset2D := fun w _ => .ok [w]
  area := fun _ => .ok 1
  relocate := fun _ w => w
  zmin := lowest
  wireLength := fun w => (w.map Edge.length).sum
  centerZ := fun e => (e.travel 0).z
  cutPlane := fun f w => w.filter (fun e => !inPlane f e)
  assemble := fun es => .ok es

theorem lowest_mem {w : List Edge} (h : w ≠ []) : ∃ e ∈ w, (e.travel 0).z = lowest w := by
  induction w with
  | nil => exact absurd rfl h
  | cons e es ih =>
    cases es with
    | nil => exact ⟨e, by simp, rfl⟩
    | cons e2 es =>
      obtain ⟨x, hx, hx2⟩ := ih (by simp)
      simp only [lowest]
      rcases min_choice (e.travel 0).z (lowest (e2 :: es)) with hm | hm
      · exact ⟨e, by simp, hm.symm⟩
      · exact ⟨x, by simp at hx ⊢; tauto, by rw [hx2]; exact hm.symm⟩

theorem flatCad_boxMoves : BoxMoves flatCad := by
  intro dz w w' hw h
  change lowest w' = lowest w + dz
  induction h with
  | nil => exact absurd rfl hw
  | @cons e e' es es' he hes ih =>
    cases hes with
    | nil => simp [lowest, he.travel]
    | @cons e2 e2' es es' h2 h3 =>
      have := ih (by simp)
      simp only [lowest] at this ⊢
      rw [this, he.travel, min_add_add_right]

theorem flatCad_keepsBelow : KeepsBelow flatCad Frame.xy := by
  intro w hw
  have hne : w ≠ [] := by
    rintro rfl
    exact absurd hw (by simp only [flatCad, lowest]; norm_num)
  obtain ⟨e, he, hz⟩ := lowest_mem hne
  have hw' : (e.travel 0).z < -1 / 1000 := by rw [hz]; exact hw
  refine ⟨e, ?_, by change (e.travel 0).z < 0; linarith⟩
  simp only [flatCad, List.mem_filter, he, true_and, Bool.not_eq_true', inPlane, Bool.and_eq_false_iff, decide_eq_false_iff_not]
  left
  simp [Frame.xy, Vec.sub, Vec.dot]
  linarith

/-- The hypotheses of C46 and C47 hold for this kernel, with three passes for a wire at depth 3 and stepdown 1. -/
example : BoxMoves flatCad ∧ KeepsBelow flatCad Frame.xy ∧ innerSquare.map (Edge.up (-2)) ≠ [] ∧
    -1 / 1000 ≤ flatCad.zmin (innerSquare.map (Edge.up (-2))) + 101 * 1 ∧
    (match profileLayers flatCad Frame.xy (innerSquare.map (Edge.up (-2))) (some 1) with
      | .ok ls => ls.map lowest | .error _ => []) = [-1, -2, -3] :=
  ⟨flatCad_boxMoves, flatCad_keepsBelow, by simp [innerSquare, outline], by decide +kernel, by decide +kernel⟩

theorem edgeOK_up {e : Edge} (h : EdgeOK e) (dz : ℚ) : EdgeOK (e.up dz) where
  param0 := by simp only [Edge.up, h.param0]
  param1 := by simp only [Edge.up, h.param1]
  len0 := by simp only [Edge.up, h.len0]
  len1 := by simp only [Edge.up, h.len1]

theorem wireOK_up {w : List Edge} (h : WireOK w) (dz : ℚ) : WireOK (w.map (Edge.up dz)) where
  nonempty := by simpa using h.nonempty
  edgeOK := by
    intro e he
    obtain ⟨x, hx, rfl⟩ := List.mem_map.mp he
    exact edgeOK_up (h.edgeOK x hx) dz
  routable := by
    intro e he
    obtain ⟨x, hx, rfl⟩ := List.mem_map.mp he
    exact h.routable x hx
  distinct := by
    rw [List.pairwise_map]
    exact h.distinct

theorem innerSquare_ok : WireOK innerSquare :=
  outline_ok (by decide +kernel) (by decide +kernel) (by decide +kernel)

/-- A job surface at world height -3. -/
def lowTop : Frame := ⟨⟨0, 0, -3⟩, ⟨1, 0, 0⟩, ⟨0, 1, 0⟩, ⟨0, 0, 1⟩⟩

/-- C46 is false when the job's top plane, taken in world coordinates, contains a pass in job coordinates.  For a job
whose surface is at world height -3, a wire at depth 6 and a stepdown of 1 there are three passes only, at depths 4, 5
and 6: the first one is 4 below the surface. -/
theorem C46_violated : ∃ base layers, BoxMoves flatCad ∧ WireOK base ∧ flatCad.zmin base = -6 ∧
    profileLayers flatCad lowTop base (some 1) = .ok layers ∧ layers.map flatCad.zmin = [-4, -5, -6] := by
  have hm : (match profileLayers flatCad lowTop (innerSquare.map (Edge.up (-5))) (some 1) with
      | .ok ls => decide (ls.map flatCad.zmin = [-4, -5, -6]) | .error _ => false) = true := by decide +kernel
  cases h : profileLayers flatCad lowTop (innerSquare.map (Edge.up (-5))) (some 1) with
  | error e => rw [h] at hm; cases hm
  | ok ls =>
    rw [h] at hm
    exact ⟨_, ls, flatCad_boxMoves, wireOK_up innerSquare_ok _, by decide +kernel, h, by simpa using hm⟩

/-! ### C48 -/

theorem extractWires_eq (shapes : List Shape) :
    (Shape.other ∈ shapes → extractWires shapes = .error .valueError) ∧
      (Shape.other ∉ shapes → extractWires shapes = .ok (outerWires shapes, innerWires shapes)) := by
  induction shapes with
  | nil => exact ⟨by simp, fun _ => rfl⟩
  | cons s ss ih =>
    cases s with
    | wire w =>
      simp only [List.mem_cons, reduceCtorEq, false_or, extractWires, outerWires, innerWires]
      exact ⟨fun h => by rw [ih.1 h]; rfl, fun h => by rw [ih.2 h]; rfl⟩
    | face o i =>
      simp only [List.mem_cons, reduceCtorEq, false_or, extractWires, outerWires, innerWires]
      exact ⟨fun h => by rw [ih.1 h]; rfl, fun h => by rw [ih.2 h]; rfl⟩
    | other => exact ⟨fun _ => rfl, fun h => absurd (by simp) h⟩

/-- C48.  A profile is refused (`ValueError`, nothing is changed) exactly when the job has no tool diameter, when both
offsets are `None`, or when a shape is neither a wire nor a face. -/
theorem C48_refused (cad : Cad) (j : Job) (shapes : List Shape) (outerOffset innerOffset stepdown : Option ℚ)
    (tabs : Option Tabs) (tool : Option Tool) :
    ((profileRequest cad shapes outerOffset innerOffset stepdown tabs tool).pre j = .error .valueError ∧
      j.call (profileRequest cad shapes outerOffset innerOffset stepdown tabs tool) = (j, .error .valueError) ∧
      (j.toolDiameter = none ∨ (outerOffset = none ∧ innerOffset = none) ∨ Shape.other ∈ shapes)) ∨
    ((profileRequest cad shapes outerOffset innerOffset stepdown tabs tool).pre j = .ok () ∧ j.toolDiameter ≠ none ∧
      ¬ (outerOffset = none ∧ innerOffset = none) ∧ Shape.other ∉ shapes) := by
  have hpre : (profileRequest cad shapes outerOffset innerOffset stepdown tabs tool).pre j =
      if j.toolDiameter = none then .error .valueError
      else if outerOffset = none ∧ innerOffset = none then .error .valueError
      else (do
        let _ ← extractWires shapes
        .ok ()) := rfl
  by_cases hc : j.toolDiameter = none ∨ (outerOffset = none ∧ innerOffset = none) ∨ Shape.other ∈ shapes
  · have he : (profileRequest cad shapes outerOffset innerOffset stepdown tabs tool).pre j = .error .valueError := by
      rw [hpre]
      split
      · rfl
      · split
        · rfl
        · rename_i h1 h2
          rw [(extractWires_eq shapes).1 (by tauto)]; rfl
    exact Or.inl ⟨he, by simp only [Job.call, he], hc⟩
  · push Not at hc
    right
    have h2 : ¬ (outerOffset = none ∧ innerOffset = none) := fun h => hc.2.1 h.1 h.2
    refine ⟨?_, hc.1, h2, hc.2.2⟩
    rw [hpre, if_neg hc.1, if_neg h2, (extractWires_eq shapes).2 hc.2.2]; rfl

/-- The moves of the profiles of the wires, one after the other; none at all if the offset is `None`. -/
def ProfileBlocks (cad : Cad) (j : Job) (offset stepdown : Option ℚ) (tabs : Option Tabs) (wires : List (List Edge))
    (blocks : List (List Motion)) : Prop :=
  match offset with
  | none => blocks = []
  | some o => List.Forall₂ (fun w cs => profile cad j w o stepdown tabs = .ok cs) wires blocks

theorem profilesOpt_blocks {cad : Cad} {j : Job} {offset stepdown : Option ℚ} {tabs : Option Tabs}
    {wires : List (List Edge)} {cs : List Motion} (h : profilesOpt cad j offset stepdown tabs wires = .ok cs) :
    ∃ blocks, cs = blocks.flatten ∧ ProfileBlocks cad j offset stepdown tabs wires blocks := by
  cases offset with
  | none => cases h; exact ⟨[], rfl, rfl⟩
  | some o =>
    simp only [profilesOpt, profiles] at h
    obtain ⟨bs, h1, h⟩ := bind_ok.mp h
    cases h
    exact ⟨bs, rfl, mapE_ok.mp h1⟩

/-- C48.  If a profile call succeeds, one operation "Profile" is added: the profiles of all inner wires in order with the
inner offset (none if it is `None`), then those of all outer wires with the outer offset (none if it is `None`), all for
the job after the tool update. -/
theorem C48_order {cad : Cad} {j j' : Job} {shapes : List Shape} {outerOffset innerOffset stepdown : Option ℚ}
    {tabs : Option Tabs} {tool : Option Tool}
    (h : (j.call (profileRequest cad shapes outerOffset innerOffset stepdown tabs tool)).2 = .ok j') :
    ∃ inner outer,
      j'.operations = (j.updateTool tool).2.operations ++
        [⟨(j.updateTool tool).2.name, "Profile".toList, (inner.flatten ++ outer.flatten).map Command.motion⟩] ∧
      ProfileBlocks cad (j.updateTool tool).2 innerOffset stepdown tabs (innerWires shapes) inner ∧
      ProfileBlocks cad (j.updateTool tool).2 outerOffset stepdown tabs (outerWires shapes) outer := by
  rcases C48_refused cad j shapes outerOffset innerOffset stepdown tabs tool with ⟨-, hr, -⟩ | ⟨hp, -, -, ho⟩
  · rw [hr] at h; cases h
  · simp only [Job.call, hp] at h
    have hgen : (profileRequest cad shapes outerOffset innerOffset stepdown tabs tool).gen (j.updateTool tool).2 = (do
        let a ← profilesOpt cad (j.updateTool tool).2 innerOffset stepdown tabs (innerWires shapes)
        let b ← profilesOpt cad (j.updateTool tool).2 outerOffset stepdown tabs (outerWires shapes)
        .ok (a ++ b)) := by
      simp only [profileRequest, (extractWires_eq shapes).2 ho]; rfl
    have htool : (profileRequest cad shapes outerOffset innerOffset stepdown tabs tool).tool = tool := rfl
    rw [htool] at h
    cases hg : (profileRequest cad shapes outerOffset innerOffset stepdown tabs tool).gen (j.updateTool tool).2 with
    | error e => rw [hg] at h; cases h
    | ok cs =>
      rw [hg] at h
      simp only [Except.ok.injEq] at h
      rw [hgen] at hg
      obtain ⟨a, h1, hg⟩ := bind_ok.mp hg
      obtain ⟨b, h2, hg⟩ := bind_ok.mp hg
      cases hg
      obtain ⟨inner, rfl, k1⟩ := profilesOpt_blocks h1
      obtain ⟨outer, rfl, k2⟩ := profilesOpt_blocks h2
      exact ⟨inner, outer, by rw [← h]; rfl, k1, k2⟩

/-- C48 for `Job.wire_profile`: a successful call adds one operation "Wire Profile", the profiles of all wires in order with the
given offset, stepdown and tabs. -/
theorem C48_wire_profile {cad : Cad} {j j' : Job} {wires : List (List Edge)} {offset : ℚ} {stepdown : Option ℚ}
    {tabs : Option Tabs} {tool : Option Tool}
    (h : (j.call (wireProfileRequest cad wires offset stepdown tabs tool)).2 = .ok j') :
    ∃ blocks : List (List Motion),
      j'.operations = (j.updateTool tool).2.operations ++
        [⟨(j.updateTool tool).2.name, "Wire Profile".toList, blocks.flatten.map Command.motion⟩] ∧
      List.Forall₂ (fun w cs => profile cad (j.updateTool tool).2 w offset stepdown tabs = .ok cs) wires blocks := by
  have hpre : (wireProfileRequest cad wires offset stepdown tabs tool).pre j = .ok () := rfl
  have htool : (wireProfileRequest cad wires offset stepdown tabs tool).tool = tool := rfl
  have hgen : (wireProfileRequest cad wires offset stepdown tabs tool).gen (j.updateTool tool).2 =
      profiles cad (j.updateTool tool).2 offset stepdown tabs wires := rfl
  have hname : (wireProfileRequest cad wires offset stepdown tabs tool).opName = "Wire Profile".toList := rfl
  simp only [Job.call, hpre, htool] at h
  rw [hgen, hname] at h
  generalize hn : "Wire Profile".toList = n at h ⊢
  obtain ⟨X, hX⟩ : ∃ X, profiles cad (j.updateTool tool).2 offset stepdown tabs wires = X := ⟨_, rfl⟩
  rw [hX] at h
  cases X with
  | error e => cases h
  | ok cs =>
    simp only [Except.ok.injEq] at h
    unfold profiles at hX
    obtain ⟨bs, h1, h2⟩ := bind_ok.mp hX
    simp only [Except.ok.injEq] at h2
    subst h2
    exact ⟨bs, by rw [← h]; rfl, mapE_ok.mp h1⟩

end CQ
