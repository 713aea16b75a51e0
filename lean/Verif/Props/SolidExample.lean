import Verif.Props.Solid
import Verif.Props.GougeExample
import Verif.Props.Split

/-! # C135: instances, and a part that does not survive -/

namespace CQ

/-- A square part with a round blind hole in the middle, which leaves its corners standing. -/
def holedPart : Solid := fun q ζ => squarePart q ∧ -1 ≤ ζ ∧ ζ ≤ 0 ∧ (ζ ≤ -1 / 2 ∨ 1 ≤ sqDist ⟨3, 3⟩ q)

def holedProfile (tabs : Option Tabs) : Request := wireProfileRequest strictCad [innerSquare] 1 (some (3 / 5)) tabs none
def holedDrill : Request := drillRequest drillCenter (some [.vector ⟨3, 3, 0⟩]) (some (1 / 2)) none

theorem movesAbove_of {r : Except Err (List Motion)} {lo : ℚ}
    (h : (match r with | .ok cs => cs.all (fun c => decide (∃ z ∈ c.fin.z, lo ≤ z)) | .error _ => true) = true) :
    ∀ cs, r = .ok cs → MovesAbove lo cs := by
  rintro cs rfl c hc
  obtain ⟨z, hz, hl⟩ := of_decide_eq_true (List.all_eq_true.mp h c hc)
  exact ⟨z, hz, hl⟩

theorem holedPart_away : OffsetsAway strictCad (fun q => ∃ ζ, holedPart q ζ ∧ -1 + 0 < ζ) innerSquare 1 :=
  fun d hd found hf c hc e he p hp q ⟨_, hq, _⟩ => innerSquare_away d hd found hf c hc e he p hp q hq.1

/-- The hypotheses of `C135_wire_profile_partial`: the part milled along a larger square. -/
theorem holedProfile_spares : CallSpares holedPart (1 / 500) 0 (twoJob.updateTool none).2 (holedProfile none) := by
  refine C135_wire_profile_partial (lo := -1) (τ := 3 / 2000) (cad := strictCad) flatCad_boxMoves (by decide +kernel)
    (innerSquare_contours innerSquare_plain) (fun _ _ => rfl) strictCad_tolerance (movesAbove_of (by decide +kernel)) ?_
  intro R hR
  rw [show (twoJob.updateTool none).2.toolRadius = some 1 from by decide +kernel] at hR
  cases hR
  refine ⟨by norm_num, fun w hw => ?_⟩
  cases List.mem_singleton.mp hw
  change OffsetsSound strictCad (innerSquare.map (Edge.toLocal twoJob.top)) (1 * 1) ∧
    OffsetsAway strictCad _ (innerSquare.map (Edge.toLocal twoJob.top)) (1 * 1)
  rw [innerSquare_local, one_mul]
  exact ⟨innerSquare_sound 1, holedPart_away⟩

/-- Those of `C135_wire_profile_tabs_partial`: the same with tabs. -/
example : CallSpares holedPart (1 / 500) 0 (twoJob.updateTool none).2 (holedProfile (some (.edge ⟨3, 1, 1 / 2, none⟩))) := by
  refine C135_wire_profile_tabs_partial (lo := -1) (τ := 3 / 2000) (cad := strictCad) strictCad_assembles strictCad_from
    flatCad_boxMoves flatCad_keepsBelow (by rintro s ⟨⟩; norm_num) (by decide +kernel) (fun _ _ _ h => (by cases h))
    (fun w hw => ⟨by decide +kernel, by norm_num, by norm_num, innerSquare_contours innerSquare_flat w hw⟩) (fun _ _ => rfl)
    strictCad_tolerance (movesAbove_of (by decide +kernel)) ?_
  intro R hR
  rw [show (twoJob.updateTool none).2.toolRadius = some 1 from by decide +kernel] at hR
  cases hR
  refine ⟨by norm_num, fun w hw => ?_⟩
  cases List.mem_singleton.mp hw
  change OffsetsSound strictCad (innerSquare.map (Edge.toLocal twoJob.top)) (1 * 1) ∧
    OffsetsDivisible strictCad (innerSquare.map (Edge.toLocal twoJob.top)) (1 * 1) ∧
    OffsetsTabbed strictCad (.edge ⟨3, 1, 1 / 2, none⟩) (innerSquare.map (Edge.toLocal twoJob.top)) (1 * 1) ∧
    OffsetsAway strictCad _ (innerSquare.map (Edge.toLocal twoJob.top)) (1 * 1)
  rw [innerSquare_local, one_mul]
  exact ⟨innerSquare_sound 1, innerSquare_divisible 1, innerSquare_edge_tabs 1, holedPart_away⟩

/-- Those of `C135_profile_partial`: the same square given as a shape. -/
example : CallSpares holedPart (1 / 500) 0 (twoJob.updateTool none).2
    (profileRequest strictCad [.wire innerSquare] (some 1) none (some (3 / 5)) none none) := by
  refine C135_profile_partial (lo := -1) (τ := 3 / 2000) (cad := strictCad) (outers := [innerSquare]) (inners := []) flatCad_boxMoves
    (by decide +kernel) rfl ?_ (fun _ _ => rfl) strictCad_tolerance (movesAbove_of (by decide +kernel)) ?_
  · rintro w o (⟨hw, ⟨⟩⟩ | ⟨⟨⟩, -⟩)
    exact innerSquare_contours innerSquare_plain w hw
  intro R hR
  rw [show (twoJob.updateTool none).2.toolRadius = some 1 from by decide +kernel] at hR
  cases hR
  refine ⟨?_, ?_⟩
  · rintro o (⟨⟨⟩⟩ | ⟨⟨⟩⟩)
    norm_num
  · rintro w o (⟨hw, ⟨⟩⟩ | ⟨⟨⟩, -⟩)
    cases List.mem_singleton.mp hw
    change OffsetsSound strictCad (innerSquare.map (Edge.toLocal twoJob.top)) (1 * 1) ∧
      OffsetsAway strictCad _ (innerSquare.map (Edge.toLocal twoJob.top)) (1 * 1)
    rw [innerSquare_local, one_mul]
    exact ⟨innerSquare_sound 1, holedPart_away⟩

/-- The hypotheses of `C135_drill`: the hole, with a drill of its size. -/
theorem holedDrill_spares {j : Job} (hr : j.toolRadius = some 1) (ht : j.top = Frame.xy) : CallSpares holedPart (1 / 500) 0 j holedDrill := by
  refine C135_drill (by norm_num) ?_
  intro R hR centres hc v hv q ζ hq hζ
  rw [hr] at hR
  cases hR
  cases hc with
  | cons a b =>
  cases b
  have a : _ = [_] := a
  subst a
  rw [List.flatten_cons, List.flatten_nil, List.append_nil, List.mem_singleton] at hv
  subst hv
  rw [ht, show (Frame.xy.toWorld ⟨3, 3, 0⟩).xy = ⟨3, 3⟩ from by decide +kernel, one_pow]
  have hd : |(1 / 2 : ℚ)| = 1 / 2 := abs_of_nonneg (by norm_num)
  rw [hd] at hζ
  rcases hq.2.2.2 with h | h
  · linarith
  · exact h

/-- The hypotheses of `C135_program`: the part is profiled and drilled with a tool of diameter 2, and all but 4 thousandths of the tool's
radius keeps out of it, in the text that is printed. -/
example : ∃ jf t m' e1 e2 e3, ∃ evss : List (List Event), twoJob.chain [holedProfile none, holedDrill] = .ok jf ∧ jf.toGcode = .ok t ∧
    runText {} t = some (m', e1 :: (evss.flatten ++ [e2, e3])) ∧ evss.length = 2 ∧
    (∀ evs ∈ evss, ∀ e ∈ evs, isFeedMove e = true → RunSpares holedPart (996 / 1000) (1 / 2000) e) ∧ ∀ e ∈ evss.flatten, RapidHarmless e := by
  obtain ⟨cs, hg, hr, hc⟩ := call_good (j := twoJob) (r := holedProfile none) (by decide +kernel) rfl (by unfold SafeName; decide)
    (by decide +kernel)
  obtain ⟨cs', hg', hr', hc'⟩ := call_good (j := twoJob.addOperation (holedProfile none).opName (cs.map .motion)) (r := holedDrill)
    rfl rfl (by unfold SafeName; decide) (by
      rw [show holedDrill.gen (twoJob.addOperation (holedProfile none).opName (cs.map .motion)) = holedDrill.gen twoJob from
        (forgetful_drill ..).gen_past ⟨_, rfl⟩]
      decide +kernel)
  obtain ⟨t, m', e1, e2, e3, evss, a1, a2, -, -, -, a6, a7⟩ := C135_program (S := holedPart) (σ := 1 / 500) (ε := 0) (j0 := twoJob)
    (rs := [holedProfile none, holedDrill]) {} twoJob_ok (by rintro v ⟨⟩)
    (by
      intro r hr
      simp only [List.mem_cons, List.not_mem_nil, or_false] at hr
      rcases hr with rfl | rfl
      · exact .wireProfile ..
      · exact .drill ..)
    ⟨hr, fun j' hj => by rw [hc] at hj; cases hj; exact ⟨hr', fun _ _ => trivial⟩⟩
    (jf := (twoJob.addOperation (holedProfile none).opName (cs.map .motion)).addOperation holedDrill.opName (cs'.map .motion))
    (by simp only [Job.chain, hc, hc']) rfl (by rintro n ⟨⟩) (by decide +kernel) (by decide +kernel)
    ⟨holedProfile_spares, fun j' hj => by
      rw [hc] at hj; cases hj; exact ⟨holedDrill_spares (show twoJob.toolRadius = some 1 by decide +kernel) rfl, fun _ _ => trivial⟩⟩
  refine ⟨_, t, m', e1, e2, e3, evss, by simp only [Job.chain, hc, hc'], a1, a2, a6.length_eq.trans rfl, ?_, a7⟩
  intro evs hevs e he hf
  obtain ⟨s, hs, -, h⟩ := forall₂_mem_left a6 hevs
  have hD : s.toolDiameter = some 2 := by
    simp only [requestSettings, List.mem_cons, List.not_mem_nil, or_false] at hs
    rcases hs with rfl | rfl <;> rfl
  have := h 2 hD (by norm_num) (996 / 1000) (by norm_num) (by norm_num) e he hf
  rwa [zero_add] at this

/-! ### A pocket -/

theorem mix_lt {a b c t : ℚ} (t0 : 0 ≤ t) (t1 : t ≤ 1) (ha : a < c) (hb : b < c) : a + t * (b - a) < c := by
  rcases le_total a b with h | h <;> nlinarith

/-- A block with a square pocket, one deep. -/
def pocketBlock : Solid := fun q ζ => ζ ≤ 0 ∧ ¬ (Inside (rect 0 0 6 6) q ∧ -1 < ζ)

/-- The hypotheses of `C135_pocket_partial`. -/
example : CallSpares pocketBlock 0 0 (twoJob.updateTool none).2 squarePocket := by
  refine C135_pocket_partial (D := IsRect) boxEngine_near boxEngine_kind boxEngine_inside boxEngine_offsets boxEngine_cuts
    boxEngine_noRepeats (by decide +kernel) le_rfl (by rintro d ⟨⟩; norm_num [offsetDistance])
    (by
      intro c hc f hf
      simp only [List.append_nil, List.mem_singleton] at hc
      subst hc
      cases squarePocket_faces hf
      exact ⟨⟨0, 0, 6, 6, by norm_num, by norm_num, rfl⟩, by intro i hi; cases hi⟩) ?_
  intro d outer inner ao ai faces avoidFaces areas avoids regions h3 o1 o2 o3 o4 h4 h5 h6 h7 h8
  cases h3
  have ho : outer = -1 := by rw [o1]; simp [offsetDistance]
  have hi : inner = 1 := by rw [o2]; simp [offsetDistance]
  subst ho hi
  cases h4 with
  | cons a b =>
  cases b
  cases squarePocket_faces a
  cases h5
  cases h7
  cases h6 with
  | cons a b =>
  cases b
  cases squarePocket_areas a
  have hreg : ∀ r ∈ regions, r.depth = -1 := by
    have hb : (match buildPocketOps boxEngine [⟨rect 1 1 5 5, [], -1⟩] [] with
      | .ok rs => rs.all (fun r => decide (r.depth = -1)) | .error _ => true) = true := by decide +kernel
    rw [show buildPocketOps boxEngine [⟨rect 1 1 5 5, [], -1⟩] [] = .ok regions from h8] at hb
    exact fun r hr => of_decide_eq_true (List.all_eq_true.mp hb r hr)
  exact {
    inset := by norm_num
    outset := by norm_num
    around := fun h => absurd rfl h
    shrunk := by norm_num
    rings := by rintro f ⟨⟩
    holes := by
      intro f hf holes hh
      simp only [List.mem_singleton] at hf
      subst hf
      cases hh
      exact .nil
    void := fun r hr => boxEngine_noVoid
    separate := fun r hr => by
      have : cutAway [[⟨rect 1 1 5 5, [], -1⟩]] [] r.depth = [] := by
        simp only [cutAway, holesAt, List.flatten_cons, List.flatten_nil, List.append_nil, List.map_nil, List.map_eq_nil_iff]
        by_cases hd : (-1 : ℚ) ≤ r.depth <;> simp [hd]
      rw [this]
      exact .nil
    free := by
      intro r hr f hf hd z ζ hz hζ hin
      rw [List.mem_singleton] at hf
      subst hf
      rw [hreg r hr] at hζ
      exact absurd ⟨hin, by linarith⟩ hz.2
    links := by
      rintro r hr p q x ⟨t, t0, t1, rfl⟩ hp hq
      refine .inl ⟨⟨_, List.mem_singleton.mpr rfl, by rw [hreg r hr], ?_, ?_, ?_⟩, fun _ a ha => by cases ha⟩
      · obtain ⟨⟨f, hf, -, -, hp, -⟩, -⟩ := hp
        obtain ⟨⟨f', hf', -, -, hq, -⟩, -⟩ := hq
        rw [List.mem_singleton] at hf hf'
        subst hf hf'
        have hp := (inside_rect (by norm_num) (by norm_num) _).mp (hp (by norm_num) p (by norm_num [sqDist]))
        have hq := (inside_rect (by norm_num) (by norm_num) _).mp (hq (by norm_num) q (by norm_num [sqDist]))
        refine ⟨_, inOn_rect_of (by norm_num) (by norm_num) ?_ ?_ ?_ ?_, le_of_eq (show sqDist (p.lerp q t) (p.lerp q t) = _ by simp [sqDist])⟩ <;>
          simp only [Pt.lerp] <;> nlinarith [hp.1.1, hp.1.2, hp.2.1, hp.2.2, hq.1.1, hq.1.2, hq.2.1, hq.2.2]
      · intro _ z hz
        obtain ⟨⟨f, hf, -, -, hp, -⟩, -⟩ := hp
        obtain ⟨⟨f', hf', -, -, hq, -⟩, -⟩ := hq
        rw [List.mem_singleton] at hf hf'
        subst hf hf'
        have shift : ∀ y : Pt, sqDist y ⟨y.x + (z.x - (p.lerp q t).x), y.y + (z.y - (p.lerp q t).y)⟩ = sqDist (p.lerp q t) z := by
          intro y; simp only [sqDist]; ring
        have hp := (inside_rect (by norm_num) (by norm_num) _).mp (hp (by norm_num) _ ((shift p).trans_lt hz))
        have hq := (inside_rect (by norm_num) (by norm_num) _).mp (hq (by norm_num) _ ((shift q).trans_lt hz))
        simp only [Pt.lerp] at hp hq
        exact (inside_rect (by norm_num) (by norm_num) _).mpr ⟨⟨by nlinarith [hp.1.1, hq.1.1], by linarith [mix_lt t0 t1 hp.1.2 hq.1.2]⟩,
          by nlinarith [hp.2.1, hq.2.1], by linarith [mix_lt t0 t1 hp.2.2 hq.2.2]⟩
      · intro _ h hh; cases hh }

/-- The pocket of `C108_violated` around a wall: the wall as a solid, up to the top plane. -/
def wallSolid : Solid := fun q ζ => Inside (rect (9 / 128) (9 / 128) (39 / 128) (11 / 128)) q ∧ ζ ≤ 0

/-- C135 does not hold for pockets without the hypothesis on links: the wall, a hole of the given face (which is otherwise free), is milled
through by the centre of the tool. -/
theorem C135_violated_links : LeavesFree wallSolid [wallPath] [] (-1 / 10) ∧
    ∃ j2 t m' evs, (inchJob.call wallPocket).2 = .ok j2 ∧ j2.toGcode = .ok t ∧ runText {} t = some (m', evs) ∧
      ∃ e ∈ evs, isFeedMove e = true ∧ ∀ R ε, 0 < R → ε < 1 / 10 → ¬ RunSpares wallSolid R ε e := by
  refine ⟨fun f hf _ z ζ hz _ _ => .inl ?_, ?_⟩
  · rw [List.mem_singleton] at hf
    subst hf
    exact ⟨_, List.mem_cons_self, .inl hz.1⟩
  obtain ⟨-, -, -, -, j2, t, m', evs, h1, h2, h3, e, he, q, ⟨-, a, b, ctr, hs, hact, u, u0, u1, rfl⟩, hin, -⟩ := C108_violated
  refine ⟨j2, t, m', evs, h1, h2, h3, e, he, by simp [isFeedMove, hact], ?_⟩
  rintro R ε hR hε ⟨k, tgt, ctr', a', b', za, zb, g1, g2, g3, g4⟩
  rw [hact] at g1
  cases g1
  rw [hs] at g2
  simp only [Pt.pos, Pos.mk.injEq, Option.some.injEq] at g2 g3
  obtain ⟨x1, y1, z1⟩ := g2
  obtain ⟨x2, y2, z2⟩ := g3
  have ea : a' = a := by ext <;> simp [*]
  have eb : b' = b := by ext <;> simp [*]
  subst ea eb z1 z2
  have := g4 u u0 u1 (a'.lerp b' u) 0 ⟨hin, le_rfl⟩ (by linarith)
  simp only [sqDist, sub_self] at this
  nlinarith

/-! ### A surface -/

/-- The hypotheses of `C135_surface`: a roof below the surface the tool is dropped on. -/
example : CallSpares (fun q ζ => ζ ≤ -2 - |q.x - 4|) 0 (1 / 2) areaJob
    (surface3dRequest ridgeEngine idleKernel hillArgs (-1, 0) (some (1, 0)) [hillFace]) := by
  refine C135_surface (h := ridge) (K := 1) (r := 1) (fun _ => rfl) ridge_slope (by norm_num) hill_measures (by norm_num)
    (by decide +kernel) (by decide +kernel) (by decide +kernel) (by decide +kernel) (by decide +kernel) le_rfl (by norm_num [hillArgs]) ?_
  intro R hR p q ζ hq hζ
  rw [show areaJob.toolRadius = some 1 from by decide +kernel] at hR
  cases hR
  by_contra hc
  rw [not_le] at hc
  have hx := (sqDist_coords (by norm_num) hc).1
  have h1 : |p.x - 4| ≤ |q.x - 4| + 1 := by
    have := abs_sub_abs_le_abs_sub (p.x - 4) (q.x - 4)
    have h2 : |p.x - 4 - (q.x - 4)| ≤ 1 := by rw [abs_le]; constructor <;> linarith
    linarith
  have h2 : -1 - |p.x - 4| ≤ ridge p := le_max_right _ _
  linarith

end CQ
