import Verif.Props.SolidPocket64
import Verif.Props.SolidExample
import Verif.Props.Gouge64Example

/-! # C155: a pocket -/

namespace CQ

/-- A block with a square pocket whose corner is not on the grid, one deep. -/
def plainBlock64 : Solid := fun q ζ => ζ ≤ 0 ∧ ¬ (Inside (rect (1 / 10) (1 / 10) 40 40) q ∧ -1 < ζ)

/-- The hypotheses of `C155_pocket_partial`: on an engine whose offsets are off by half a millimetre, all but 2.7 mm of the tool's radius keeps
out of the walls of the pocket, and the floor is kept up to a hundred-thousandth. -/
example : CallSpares plainBlock64 (27 / 10) (1 / 100000) sixJob64 plainPocket64 := by
  refine C155_pocket_partial (lib := demoLib) (σ' := 26 / 10) (ε' := 0) intMoat_engine intMoat_boxes squaresWell_b64 rfl (by decide +kernel) le_rfl
    (by norm_num) (by norm_num) (by rintro s ⟨⟩; exact ⟨quarter_double, .inr ⟨by norm_num, by norm_num⟩⟩)
    (by
      intro c hc f hf
      simp only [List.append_nil, List.mem_singleton] at hc
      subst hc
      rw [flatFace_fun hf plain64_flat]
      exact ⟨off_rounded.1, by simp [plainPath64]⟩) ?_
  intro d outer inner ao ai step faces avoidFaces areas avoids regions h3 o1 o2 o3 o4 o5 h4 h5 h6 h7 h8
  cases h3
  have p1 := near_of (m := -1) (d := 0) (by simpa [offsetParts] using o1) (by norm_num) (by norm_num)
  have p2 := near_of (m := 1) (d := 0) (by simpa [offsetParts] using o2) (by norm_num) (by norm_num)
  have p5 : |step - 6| ≤ 1 / 1000 := by
    have hη : (2 : ℚ) ^ (-1072 : ℤ) ≤ 2 ^ (-20 : ℤ) := zpow_le_zpow_right₀ (by norm_num) (by norm_num)
    have := o5
    simp only [OffsetNear, offsetParts] at this
    generalize (2 : ℚ) ^ (-1072 : ℤ) = η at *
    norm_num at this hη ⊢
    linarith
  rw [abs_le] at p1 p2 p5
  norm_num at p1 p2 p5
  have hres : (1 : ℚ) / 2 + 3 * resolution ≤ 501 / 1000 := by unfold resolution; norm_num
  have hres0 : (0 : ℚ) ≤ 1 / 2 + 3 * resolution := by unfold resolution; norm_num
  cases h4 with
  | cons a b =>
  cases b
  cases flatFace_fun a plain64_flat
  cases h5
  cases h7
  cases h6 with
  | cons a b =>
  cases b
  obtain ⟨outlines, hol, hgs⟩ := a
  rw [if_pos (show plainPath64.inners = [] from rfl)] at hgs
  have hol := intMoat_offset_one hol
  subst hgs
  have hreg : ∀ r ∈ regions, r.depth = -1 := by
    intro r hr
    obtain ⟨f, hf, he⟩ := ops_depth h8 hr
    simp only [List.flatten_cons, List.flatten_nil, List.append_nil, List.mem_map] at hf
    obtain ⟨o, -, rfl⟩ := hf
    exact he.symm
  generalize (1 : ℚ) / 2 + 3 * resolution = δ at *
  refine ⟨by linarith, ?_, ?_⟩
  · intro f hf
    rw [List.mem_singleton] at hf
    subst hf
    exact ⟨off_box.mono (by norm_num), by norm_num [plainPath64]⟩
  exact {
    inset := by linarith
    outset := by linarith
    around := fun h => absurd rfl h
    shrunk := by linarith
    rings := by rintro f ⟨⟩
    holes := by
      intro f hf holes hh
      rw [List.mem_singleton] at hf
      subst hf
      cases hh
      exact .nil
    void := fun r hr => intMoat_noVoid (by simpa using hol)
    separate := fun r hr => by
      have : cutAway [outlines.map (fun o => (⟨o, [], plainPath64.depth⟩ : PathFace))] [] r.depth = [] := by
        simp [cutAway, holesAt]
      rw [this]
      exact .nil
    free := by
      intro r hr f hf hd z ζ hz hζ hin
      rw [List.mem_singleton] at hf
      subst hf
      rw [hreg r hr] at hζ
      exact absurd ⟨hin, by linarith⟩ hz.2
    links := by
      rintro r hr p q x ⟨t, t0, t1, rfl⟩ ⟨⟨f, hf, -, -, hp, -⟩, -⟩ ⟨⟨f', hf', -, -, hq, -⟩, -⟩
      rw [List.mem_singleton] at hf hf'
      subst hf hf'
      have hr0 : 0 < -outer - 5 * δ := by linarith
      have key : ∀ z, sqDist (p.lerp q t) z < (-outer - 5 * δ) ^ 2 → Inside (rect (1 / 10) (1 / 10) 40 40) z := by
        intro z hz
        have shift : ∀ y : Pt, sqDist y ⟨y.x + (z.x - (p.lerp q t).x), y.y + (z.y - (p.lerp q t).y)⟩ = sqDist (p.lerp q t) z := by
          intro y; simp only [sqDist]; ring
        have hp := (inside_rect (by norm_num) (by norm_num) _).mp (hp hr0 _ ((shift p).trans_lt hz))
        have hq := (inside_rect (by norm_num) (by norm_num) _).mp (hq hr0 _ ((shift q).trans_lt hz))
        simp only [Pt.lerp] at hp hq
        exact (inside_rect (by norm_num) (by norm_num) _).mpr ⟨⟨by nlinarith [hp.1.1, hq.1.1], by linarith [mix_lt t0 t1 hp.1.2 hq.1.2]⟩,
          by nlinarith [hp.2.1, hq.2.1], by linarith [mix_lt t0 t1 hp.2.2 hq.2.2]⟩
      refine .inl ⟨⟨_, List.mem_singleton.mpr rfl, by rw [hreg r hr]; exact le_rfl, ?_, fun _ => key, ?_⟩, fun _ a ha => by cases ha⟩
      · refine ⟨_, .inl (key (p.lerp q t) ?_), ?_⟩
        · simp only [sqDist, sub_self]; nlinarith
        · simp only [sqDist, sub_self]; nlinarith
      · intro _ h hh; cases hh }

end CQ
