import Verif.Props.Solid64
import Verif.Props.SolidExample
import Verif.Props.Gouge64Example

/-! # C155: instances, and a part that does not survive -/

namespace CQ

def holedProfile64 : Request := wireProfileRequest64 gapCad [innerSquare] 1 (some (b64 (3 / 10))) none
def holedDrill64 : Request :=
  drillRequest64 (fun x => b64 (x * x)) (fun f v => world64 (f.toWorld v)) drillCenter (some [.vector ⟨3, 3, 0⟩]) (some (1 / 2)) none

theorem holedPart_away64 : OffsetsAwayWithin gapCad (fun q => ∃ ζ, holedPart q ζ ∧ -1 + 0 < ζ) innerSquare 1 (2 / 1000000) 0 :=
  fun d hd found hf c hc e he p hp a ha had q ⟨_, hq, _⟩ => innerSquare_away64 d hd found hf c hc e he p hp a ha had q hq.1

/-- The hypotheses of `C155_wire_profile_partial`: the part milled along a larger square, on a kernel whose boxes are rounded. -/
theorem holedProfile64_spares : CallSpares holedPart (1 / 500) 0 (twoJob.updateTool none).2 holedProfile64 := by
  refine C155_wire_profile_partial (lo := -1) (τ := 3 / 2000) (κ := 0) (cad := gapCad) gapCad_keepsBelow
    (steps64_millimetres (by decide +kernel) (by decide +kernel)) (by decide +kernel) ?_ (fun _ _ => rfl)
    ⟨strictCad_tolerance.unit, strictCad_tolerance.same⟩ (movesAbove_of (by decide +kernel)) ?_
  · intro w hw r bases h1 h2 b hb
    cases List.mem_singleton.mp hw
    cases innerSquare_offset64 h2
    cases List.mem_singleton.mp hb
    exact innerSquare_plain64 (by decide +kernel)
  intro R hR
  rw [show (twoJob.updateTool none).2.toolRadius = some 1 from by decide +kernel] at hR
  cases hR
  refine ⟨by norm_num, by norm_num, fun w hw => ?_⟩
  cases List.mem_singleton.mp hw
  change OffsetsSoundWithin gapCad (innerSquare.map (Edge.toLocal twoJob.top)) (1 * 1) _ ∧
    OffsetsAwayWithin gapCad _ (innerSquare.map (Edge.toLocal twoJob.top)) (1 * 1) _ _
  rw [innerSquare_local, one_mul]
  exact ⟨innerSquare_sound64 1 _, holedPart_away64⟩

/-- Those of `C155_profile_partial`: the same square given as a shape. -/
example : CallSpares holedPart (1 / 500) 0 (twoJob.updateTool none).2
    (profileRequest64 gapCad [.wire innerSquare] (some 1) none (some (b64 (3 / 10))) none) := by
  refine C155_profile_partial (lo := -1) (τ := 3 / 2000) (κ := 0) (cad := gapCad) (outers := [innerSquare]) (inners := []) gapCad_keepsBelow
    (steps64_millimetres (by decide +kernel) (by decide +kernel)) (by decide +kernel) rfl ?_ (fun _ _ => rfl)
    ⟨strictCad_tolerance.unit, strictCad_tolerance.same⟩ (movesAbove_of (by decide +kernel)) ?_
  · rintro w o (⟨hw, ⟨⟩⟩ | ⟨⟨⟩, -⟩) r bases h1 h2 b hb
    cases List.mem_singleton.mp hw
    cases innerSquare_offset64 h2
    cases List.mem_singleton.mp hb
    exact innerSquare_plain64 (by decide +kernel)
  intro R hR
  rw [show (twoJob.updateTool none).2.toolRadius = some 1 from by decide +kernel] at hR
  cases hR
  refine ⟨?_, ?_⟩
  · rintro o (⟨⟨⟩⟩ | ⟨⟨⟩⟩)
    norm_num
  · rintro w o (⟨hw, ⟨⟩⟩ | ⟨⟨⟩, -⟩)
    cases List.mem_singleton.mp hw
    change OffsetsSoundWithin gapCad (innerSquare.map (Edge.toLocal twoJob.top)) (1 * 1) _ ∧
      OffsetsAwayWithin gapCad _ (innerSquare.map (Edge.toLocal twoJob.top)) (1 * 1) _ _
    rw [innerSquare_local, one_mul]
    exact ⟨innerSquare_sound64 1 _, holedPart_away64⟩

theorem holedPart_tabs64 : ∀ R, (twoJob.updateTool none).2.toolRadius = some R → |1 * R| ≤ 2 ^ 20 ∧
    R + 3 / 2000 + 0 + 2 / 1000000 ≤ |1 * R| + 1 / 500 ∧ ∀ w ∈ [innerSquare],
      OffsetsAwayWithin gapStrictCad (fun q => ∃ ζ, holedPart q ζ ∧ -1 + 0 < ζ) (w.map (Edge.toLocal (twoJob.updateTool none).2.top)) (1 * R)
        (2 / 1000000) 0 := by
  intro R hR
  rw [show (twoJob.updateTool none).2.toolRadius = some 1 from by decide +kernel] at hR
  cases hR
  refine ⟨by norm_num, by norm_num, fun w hw => ?_⟩
  cases List.mem_singleton.mp hw
  change OffsetsAwayWithin gapCad _ (innerSquare.map (Edge.toLocal twoJob.top)) (1 * 1) _ _
  rw [innerSquare_local, one_mul]
  exact holedPart_away64

/-- Those of `C155_edge_tabs_partial`: with two tabs on each side. -/
example : CallSpares holedPart (1 / 500) 0 (twoJob.updateTool none).2
    (tabWireProfileRequest64 gapStrictCad Edge.length exactTotal [innerSquare] 1 (some (b64 (3 / 5))) (.edge ⟨3, 1, 1 / 2, none⟩) none) :=
  C155_edge_tabs_partial (lo := -1) (τ := 3 / 2000) (κ := 0) (cad := gapStrictCad) strictCad_assembles strictCad_from
    (tabs := ⟨3, 1, 1 / 2, none⟩) (by norm_num) (by norm_num) gapCad_keepsBelow
    (steps64_millimetres (by decide +kernel) (by decide +kernel)) (by decide +kernel) (fun _ _ _ h => (by cases h))
    (gapStrict_contours (by decide +kernel) ⟨innerSquare_contour64 (by decide +kernel), innerSquare_measured, innerSquare_shaped⟩)
    (fun _ _ => rfl) ⟨strictCad_tolerance.unit, strictCad_tolerance.same⟩ (movesAbove_of (by decide +kernel)) holedPart_tabs64

/-- Those of `C155_wire_tabs_partial`: with three tabs around it. -/
example : CallSpares holedPart (1 / 500) 0 (twoJob.updateTool none).2
    (tabWireProfileRequest64 gapStrictCad Edge.length exactTotal [innerSquare] 1 (some (b64 (3 / 5))) (.wire ⟨3, 1, 1 / 2⟩) none) :=
  C155_wire_tabs_partial (lo := -1) (τ := 3 / 2000) (κ := 0) (cad := gapStrictCad) strictCad_assembles strictCad_from
    (tabs := ⟨3, 1, 1 / 2⟩) (n := 3) (by norm_num) rfl gapCad_keepsBelow
    (steps64_millimetres (by decide +kernel) (by decide +kernel)) (by decide +kernel) (fun _ _ _ h => (by cases h))
    (gapStrict_contours (by decide +kernel) ⟨innerSquare_contour64 (by decide +kernel), innerSquare_zones64, innerSquare_shaped⟩)
    (fun _ _ => rfl) ⟨strictCad_tolerance.unit, strictCad_tolerance.same⟩ (movesAbove_of (by decide +kernel)) holedPart_tabs64

/-- Those of `C155_profile_edge_tabs_partial` and `C155_profile_wire_tabs_partial`: the square given as a shape. -/
example : CallSpares holedPart (1 / 500) 0 (twoJob.updateTool none).2
    (tabProfileRequest64 gapStrictCad Edge.length exactTotal [.wire innerSquare] (some 1) none (some (b64 (3 / 5)))
      (.edge ⟨3, 1, 1 / 2, none⟩) none) := by
  refine C155_profile_edge_tabs_partial (lo := -1) (τ := 3 / 2000) (κ := 0) (cad := gapStrictCad) strictCad_assembles strictCad_from
    (tabs := ⟨3, 1, 1 / 2, none⟩) (outers := [innerSquare]) (inners := []) (by norm_num) (by norm_num) gapCad_keepsBelow
    (steps64_millimetres (by decide +kernel) (by decide +kernel)) (by decide +kernel) (fun _ _ _ h => (by cases h)) rfl ?_
    (fun _ _ => rfl) ⟨strictCad_tolerance.unit, strictCad_tolerance.same⟩ (movesAbove_of (by decide +kernel)) ?_
  · rintro w o (⟨hw, ⟨⟩⟩ | ⟨⟨⟩, -⟩)
    exact gapStrict_contours (by decide +kernel) ⟨innerSquare_contour64 (by decide +kernel), innerSquare_measured, innerSquare_shaped⟩ w hw
  · intro R hR
    obtain ⟨h1, h2, h3⟩ := holedPart_tabs64 R hR
    refine ⟨?_, ?_⟩
    · rintro o (⟨⟨⟩⟩ | ⟨⟨⟩⟩)
      exact ⟨h1, h2⟩
    · rintro w o (⟨hw, ⟨⟩⟩ | ⟨⟨⟩, -⟩)
      exact h3 w hw

example : CallSpares holedPart (1 / 500) 0 (twoJob.updateTool none).2
    (tabProfileRequest64 gapStrictCad Edge.length exactTotal [.wire innerSquare] (some 1) none (some (b64 (3 / 5)))
      (.wire ⟨3, 1, 1 / 2⟩) none) := by
  refine C155_profile_wire_tabs_partial (lo := -1) (τ := 3 / 2000) (κ := 0) (cad := gapStrictCad) strictCad_assembles strictCad_from
    (tabs := ⟨3, 1, 1 / 2⟩) (n := 3) (outers := [innerSquare]) (inners := []) (by norm_num) rfl gapCad_keepsBelow
    (steps64_millimetres (by decide +kernel) (by decide +kernel)) (by decide +kernel) (fun _ _ _ h => (by cases h)) rfl ?_
    (fun _ _ => rfl) ⟨strictCad_tolerance.unit, strictCad_tolerance.same⟩ (movesAbove_of (by decide +kernel)) ?_
  · rintro w o (⟨hw, ⟨⟩⟩ | ⟨⟨⟩, -⟩)
    exact gapStrict_contours (by decide +kernel) ⟨innerSquare_contour64 (by decide +kernel), innerSquare_zones64, innerSquare_shaped⟩ w hw
  · intro R hR
    obtain ⟨h1, h2, h3⟩ := holedPart_tabs64 R hR
    refine ⟨?_, ?_⟩
    · rintro o (⟨⟨⟩⟩ | ⟨⟨⟩⟩)
      exact ⟨h1, h2⟩
    · rintro w o (⟨hw, ⟨⟩⟩ | ⟨⟨⟩, -⟩)
      exact h3 w hw

/-- The hypotheses of `C155_drill`: the hole, with a drill of its size. -/
theorem holedDrill64_spares {j : Job} (hr : j.toolRadius = some 1) (ht : j.top = Frame.xy) :
    CallSpares holedPart (1 / 500) 0 j holedDrill64 := by
  refine C155_drill squares_b64 (fun v => ⟨b64_isDouble _, b64_isDouble _⟩) (by norm_num) ?_
  intro R hR centres hc v hv q ζ hq hζ
  rw [hr] at hR
  cases hR
  cases hc with
  | cons a b =>
  cases b
  have a : _ = [_] := a
  subst a
  rw [List.flatten_cons, List.flatten_nil, List.append_nil, List.mem_singleton] at hv
  subst hv
  rw [ht, show (world64 (Frame.xy.toWorld ⟨3, 3, 0⟩)).xy = ⟨3, 3⟩ from by decide +kernel, one_pow]
  have hd : |(1 / 2 : ℚ)| = 1 / 2 := abs_of_nonneg (by norm_num)
  rw [hd] at hζ
  rcases hq.2.2.2 with h | h
  · linarith
  · exact h

/-- The hypotheses of `C155_program`: the part is profiled and drilled with a tool of diameter 2, and all but 4 thousandths of the tool's
radius keeps out of it, in the text that is printed. -/
example : ∃ jf t m' e1 e2 e3, ∃ evss : List (List Event), twoJob.chain [holedProfile64, holedDrill64] = .ok jf ∧ jf.toGcode = .ok t ∧
    runText {} t = some (m', e1 :: (evss.flatten ++ [e2, e3])) ∧ evss.length = 2 ∧
    (∀ evs ∈ evss, ∀ e ∈ evs, isFeedMove e = true → RunSpares holedPart (996 / 1000) (1 / 2000) e) ∧ ∀ e ∈ evss.flatten, RapidHarmless e := by
  obtain ⟨cs, hg, hr, hc⟩ := call_good (j := twoJob) (r := holedProfile64) (by decide +kernel) rfl (by unfold SafeName; decide)
    (by decide +kernel)
  obtain ⟨cs', hg', hr', hc'⟩ := call_good (j := twoJob.addOperation holedProfile64.opName (cs.map .motion)) (r := holedDrill64)
    rfl rfl (by unfold SafeName; decide) (by
      rw [show holedDrill64.gen (twoJob.addOperation holedProfile64.opName (cs.map .motion)) = holedDrill64.gen twoJob from by
        have : ∀ ps : List Pt, ∀ p, drillHoles (twoJob.addOperation holedProfile64.opName (cs.map .motion)) (-|1 / 2|) p ps =
            drillHoles twoJob (-|1 / 2|) p ps := by
          intro ps
          induction ps with
          | nil => intro p; rfl
          | cons q qs ih => intro p; rw [drillHoles, drillHoles, ih]; rfl
        simp only [holedDrill64, drillRequest64, drill64, this]
        rfl]
      decide +kernel)
  obtain ⟨t, m', e1, e2, e3, evss, a1, a2, -, -, -, a6, a7⟩ := C155_program (S := holedPart) (σ := 1 / 500) (ε := 0) (j0 := twoJob)
    (rs := [holedProfile64, holedDrill64]) {} twoJob_ok (by rintro v ⟨⟩)
    (by
      intro r hr
      simp only [List.mem_cons, List.not_mem_nil, or_false] at hr
      rcases hr with rfl | rfl
      · exact .wireProfile ..
      · exact .drill ..)
    ⟨hr, fun j' hj => by rw [hc] at hj; cases hj; exact ⟨hr', fun _ _ => trivial⟩⟩
    (jf := (twoJob.addOperation holedProfile64.opName (cs.map .motion)).addOperation holedDrill64.opName (cs'.map .motion))
    (by simp only [Job.chain, hc, hc']) rfl (by rintro n ⟨⟩) (by decide +kernel) (by decide +kernel)
    ⟨holedProfile64_spares, fun j' hj => by
      rw [hc] at hj; cases hj; exact ⟨holedDrill64_spares (show twoJob.toolRadius = some 1 by decide +kernel) rfl, fun _ _ => trivial⟩⟩
  refine ⟨_, t, m', e1, e2, e3, evss, by simp only [Job.chain, hc, hc'], a1, a2, a6.length_eq.trans rfl, ?_, a7⟩
  intro evs hevs e he hf
  obtain ⟨s, hs, -, h⟩ := forall₂_mem_left a6 hevs
  have hD : s.toolDiameter = some 2 := by
    simp only [requestSettings, List.mem_cons, List.not_mem_nil, or_false] at hs
    rcases hs with rfl | rfl <;> rfl
  have := h 2 hD (by norm_num) (996 / 1000) (by norm_num) (by norm_num) e he hf
  rwa [zero_add] at this

/-- C155 does not hold for pockets in general, as C135: the wall, a hole of the given face (which is otherwise free), is milled through by the
centre of the tool. -/
theorem C155_violated_links : LeavesFree wallSolid [wallPath] [] (-1 / 10) ∧
    ∃ j2 t m' evs, (inchJob.call wallPocket64).2 = .ok j2 ∧ j2.toGcode = .ok t ∧ runText {} t = some (m', evs) ∧
      ∃ e ∈ evs, isFeedMove e = true ∧ ∀ R ε, 0 < R → ε < 1 / 10 → ¬ RunSpares wallSolid R ε e := by
  refine ⟨C135_violated_links.1, ?_⟩
  obtain ⟨j2, t, m', evs, h1, h2, h3, e, he, q, ⟨-, a, b, ctr, hs, hact, u, u0, u1, rfl⟩, hin, -⟩ := C141_violated
  refine ⟨j2, t, m', evs, h1, h2, h3, e, he, by simp [isFeedMove, hact], ?_⟩
  rintro R ε hR hε ⟨k, tgt, ctr', a', b', za, zb, g1, g2, g3, g4⟩
  rw [hact] at g1
  cases g1
  rw [hs] at g2
  simp only [Pt.pos, Pos.mk.injEq, Option.some.injEq] at g2 g3
  obtain ⟨x1, y1, z1⟩ := g2
  obtain ⟨x2, y2, z2⟩ := g3
  have ea : a' = a := by ext <;> simp [*]
  have eb : b' = b := by ext <;> simp [*]
  subst ea eb z1 z2
  have := g4 u u0 u1 (a'.lerp b' u) 0 ⟨hin, le_rfl⟩ (by linarith)
  simp only [sqDist, sub_self] at this
  nlinarith

/-- The hypotheses of `C155_surface`: a roof below the surface, known to the drop cutter up to a thousandth. -/
example : CallSpares (fun q ζ => ζ ≤ -2 - |q.x - 4|) 0 1 areaJob
    (surface3dRequest64 ridgeSq ridgeEngine64 idleKernel hillArgs (-1, 0) (some (1, 0)) [hillFace]) := by
  refine C155_surface (h := fun p => ridge p - 1 / 1000) (H := ridge) (K := 1) (r := 3 / 2) (L := 10) (η := 1 / 1000) (fun _ => rfl)
    (fun p => by simp) ridge_slope (by norm_num) side_measures (by norm_num) (by norm_num) (by norm_num) zig_within ridge_polygon
    (by decide +kernel) (by decide +kernel) ⟨1, 0, by norm_num, by norm_num, by norm_num [hillArgs]⟩ isDouble_zero (by decide +kernel)
    (by decide +kernel) (by decide +kernel) (by decide +kernel) le_rfl (by norm_num [hillArgs]) ?_
  intro R hR p q ζ hq hζ
  rw [show areaJob.toolRadius = some 1 from by decide +kernel] at hR
  cases hR
  by_contra hc
  rw [not_le] at hc
  have hx := (sqDist_coords (by norm_num) hc).1
  have h1 : |p.x - 4| ≤ |q.x - 4| + 1 := by
    have := abs_sub_abs_le_abs_sub (p.x - 4) (q.x - 4)
    have h2 : |p.x - 4 - (q.x - 4)| ≤ 1 := by rw [abs_le]; constructor <;> linarith
    linarith
  have h2 : -1 - |p.x - 4| ≤ ridge p := le_max_right _ _
  linarith

/-- The hypotheses of `C155_mesh_partial`: all that is not above the sloping face. -/
example : CallSpares (fun q ζ => ∃ v, OnShape (.face slopeFace) v ∧ v.x = q.x ∧ v.y = q.y ∧ ζ ≤ v.z) 0 (1 / 1000) areaJob
    (surface3dMeshRequest64 ridgeSq topLibs64 idleKernel (.face slopeFace) (-5) hillArgs (-1, 0) (some (1, 0)) [hillFace]) :=
  C155_mesh_partial (R := 1) (K := 0) (L := 10) (r := 3 / 2) (η := 1 / 1000) (by decide +kernel) (fun tris _ => topLibs64_steep 1 tris (-5))
    slope_unplaced (le_refl _) side_measures (by norm_num) (by norm_num) (by norm_num) zig_within ridge_polygon (by decide +kernel)
    (by decide +kernel) ⟨1, 0, by norm_num, by norm_num, by norm_num [hillArgs]⟩ isDouble_zero (by decide +kernel) (by decide +kernel)
    (by decide +kernel) (by decide +kernel) le_rfl (by norm_num) (fun _ _ h => h)

end CQ
