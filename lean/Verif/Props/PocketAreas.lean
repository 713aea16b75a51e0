import Verif.Props.PocketPath
import Verif.Props.Wires
import Verif.Spec.PocketAreas

/-! # C74: the areas of a pocket and its refusals -/

namespace CQ

theorem offsetPath_spec {eng : Clipper} {p : List Pt} {o : ℚ} {precision : ℕ} {qs : List (List Pt)}
    (h : offsetPath eng p o precision = .ok qs) : OffsetContours eng o precision p qs := by
  unfold offsetPath at h
  obtain ⟨raw, h1, h⟩ := bind_ok.mp h
  exact ⟨raw, h1, (mapE_ok.mp h).imp fun _ _ => closedAs_of⟩

theorem offsetPolyface_spec {eng : Clipper} {f : PathFace} {a b : ℚ} {precision : ℕ} {gs : List PathFace}
    (h : offsetPolyface eng f a b precision = .ok gs) : OffsetFaces eng a b precision f gs := by
  unfold offsetPolyface at h
  obtain ⟨outers, h1, h⟩ := bind_ok.mp h
  refine ⟨outers, offsetPath_spec h1, ?_⟩
  by_cases hi : f.inners = []
  · rw [if_neg (by simp [hi])] at h
    rw [if_pos hi]
    cases h; rfl
  · rw [if_pos hi] at h
    rw [if_neg hi]
    obtain ⟨inners, h2, h⟩ := bind_ok.mp h
    unfold makePolyfaces differencePolyTree at h
    obtain ⟨tree, h3, h⟩ := bind_ok.mp h
    refine ⟨inners, tree, (mapE_ok.mp h2).imp fun _ _ => offsetPath_spec, h3, ?_⟩
    refine (mapE_ok.mp h).imp fun n g hn => ?_
    unfold nodeToPolyFace at hn
    obtain ⟨o, k1, hn⟩ := bind_ok.mp hn
    obtain ⟨is, k2, hn⟩ := bind_ok.mp hn
    cases hn
    exact ⟨closedAs_of k1, rfl, (mapE_ok.mp k2).imp fun _ _ => closedAs_of⟩

theorem fromCqFace_spec {veq : Vec → Vec → Bool} {c : CqFace} {precision : ℕ} {f : PathFace}
    (h : PathFace.fromCqFace veq c precision = .ok f) : FlatFace veq precision c f := by
  unfold PathFace.fromCqFace at h
  by_cases hz : pyRound c.zmin 3 = pyRound c.zmax 3
  · rw [if_neg (by simp [hz])] at h
    obtain ⟨o, h1, h⟩ := bind_ok.mp h
    obtain ⟨is, h2, h⟩ := bind_ok.mp h
    cases h
    exact ⟨hz, h1, mapE_ok.mp h2, rfl⟩
  · rw [if_pos hz] at h; cases h

theorem calculateOffset_distance (r k : ℚ) (o : Option OffsetInput) :
    calculateOffset r o (some k) = offsetDistance r k o := by
  cases o with
  | none => simp [calculateOffset, offsetDistance, mul_comm]
  | some o => cases o <;> simp [calculateOffset, offsetDistance, mul_comm]

theorem fromCqFace_total {veq : Vec → Vec → Bool} {c : CqFace} {precision : ℕ}
    (hw : ∀ w ∈ c.outerWire :: c.innerWires, ∃ p, wireToPath veq w precision = .ok p)
    (hz : pyRound c.zmin 3 = pyRound c.zmax 3) : ∃ f, PathFace.fromCqFace veq c precision = .ok f := by
  obtain ⟨o, h1⟩ := hw c.outerWire (by simp)
  obtain ⟨is, h2⟩ := mapE_total (f := fun w => wireToPath veq w precision) (as := c.innerWires)
    (fun w hw' => hw w (by simp [hw']))
  exact ⟨⟨o, is, c.zmax⟩, by simp [PathFace.fromCqFace, hz, h1, h2, ok_bind]⟩

theorem fromCqFaces_error {veq : Vec → Vec → Bool} {fs : List CqFace} {precision : ℕ}
    (hw : ∀ f ∈ fs, ∀ w ∈ f.outerWire :: f.innerWires, ∃ p, wireToPath veq w precision = .ok p)
    (hz : ∃ f ∈ fs, pyRound f.zmin 3 ≠ pyRound f.zmax 3) :
    mapE (fun f => PathFace.fromCqFace veq f precision) fs = .error .valueError := by
  induction fs with
  | nil => simp at hz
  | cons f fs ih =>
    by_cases h : pyRound f.zmin 3 = pyRound f.zmax 3
    · obtain ⟨g, hg⟩ := fromCqFace_total (hw f (by simp)) h
      have := ih (fun g hg => hw g (by simp [hg])) (by
        obtain ⟨x, hx, hx2⟩ := hz
        rcases List.mem_cons.mp hx with rfl | hx
        · exact absurd h hx2
        · exact ⟨x, hx, hx2⟩)
      simp [mapE, hg, this, ok_bind, error_bind]
    · simp [mapE, PathFace.fromCqFace, h, error_bind]

/-- C74.  A pocket is cut from exactly the given faces.  Each given face is flat to the thousandth and is polygonised at
its height; its outline is offset by the outer offset (by default one tool radius inwards, nothing if there are avoid
areas) and its holes by the inner offset (by default one tool radius outwards); avoid areas are offset the other way by
default.  The regions to clear are built from these areas (C38, C39), and each region's contours, spaced by the
stepover (by default half a tool radius), are cut completely at its depth (C45). -/
theorem C74_areas {eng : Clipper} {veq : Vec → Vec → Bool} {fuel : ℕ} {opAreas avoidAreas : List CqFace}
    {a : PocketArgs} {j : Job} {cs : List Motion} (h : pocket eng veq fuel opAreas avoidAreas a j = .ok cs) :
    ∃ diameter faces avoidFaces areas avoids regions, j.toolDiameter = some diameter ∧ diameter ≠ 0 ∧
      List.Forall₂ (FlatFace veq j.precision) opAreas faces ∧
      List.Forall₂ (FlatFace veq j.precision) avoidAreas avoidFaces ∧
      List.Forall₂ (OffsetFaces eng
          (if avoidAreas ≠ [] ∧ a.outerOffset = none then 0 else offsetDistance (diameter / 2) (-1) a.outerOffset)
          (offsetDistance (diameter / 2) 1 a.innerOffset) j.precision) faces areas ∧
      List.Forall₂ (OffsetFaces eng (offsetDistance (diameter / 2) 1 a.avoidOuterOffset)
          (offsetDistance (diameter / 2) (-1) a.avoidInnerOffset) j.precision) avoidFaces avoids ∧
      buildPocketOps eng areas.flatten avoids.flatten = .ok regions ∧
      (NoRepeats eng → 0 < j.opSafeHeight → ∀ r ∈ regions, ∃ contours,
        Unfolds (Follows eng r (offsetDistance (diameter / 2) (1 / 2) a.stepover) j.precision) [r.outer] contours ∧
        ∀ p ∈ contours, ∀ s ∈ segments p, ∀ q, OnSegment s.1 s.2 q → ∃ c ∈ cs, CutsThrough r.depth q c) := by
  unfold pocket at h
  cases hr : j.toolRadius with
  | none => rw [hr] at h; cases h
  | some r =>
    rw [hr] at h
    obtain ⟨diameter, hd, hd0, rfl⟩ : ∃ d, j.toolDiameter = some d ∧ d ≠ 0 ∧ d / 2 = r := by
      unfold Job.toolRadius at hr
      cases hj : j.toolDiameter with
      | none => rw [hj] at hr; cases hr
      | some d =>
        rw [hj] at hr
        by_cases h0 : d = 0
        · simp [h0] at hr
        · simp only [h0, if_false, Option.some.injEq] at hr
          exact ⟨d, rfl, h0, hr⟩
    obtain ⟨ops, h1, h⟩ := bind_ok.mp h
    obtain ⟨avoids, h2, h⟩ := bind_ok.mp h
    have hcut := fun hn hs => C45_everything_cut (eng := eng) hn h hs
    unfold pocketClipper at h
    obtain ⟨areas, h3, h⟩ := bind_ok.mp h
    obtain ⟨avs, h4, h⟩ := bind_ok.mp h
    obtain ⟨regions, h5, h⟩ := bind_ok.mp h
    refine ⟨diameter, ops, avoids, areas, avs, regions, hd, hd0, (mapE_ok.mp h1).imp fun _ _ => fromCqFace_spec,
      (mapE_ok.mp h2).imp fun _ _ => fromCqFace_spec, ?_, ?_, h5, ?_⟩
    · refine (mapE_ok.mp h3).imp fun f gs hf => ?_
      have := offsetPolyface_spec hf
      rw [calculateOffset_distance, calculateOffset_distance] at this
      by_cases hc : avoidAreas ≠ [] ∧ a.outerOffset = none
      · rw [if_pos hc] at this ⊢
        simpa [offsetDistance] using this
      · rw [if_neg hc] at this ⊢
        exact this
    · refine (mapE_ok.mp h4).imp fun f gs hf => ?_
      have := offsetPolyface_spec hf
      rwa [calculateOffset_distance, calculateOffset_distance] at this
    · intro hn hs
      obtain ⟨areas', avs', regions', k3, k4, k5, hall⟩ := hcut hn hs
      rw [h3] at k3; cases k3
      rw [h4] at k4; cases k4
      rw [h5] at k5; cases k5
      intro r hr
      have := hall r hr
      rwa [calculateOffset_distance] at this

/-- C74: without a tool diameter a pocket is refused (`TypeError`), and so is a pocket with a face that is not flat to
the thousandth (`ValueError`; the wires being polygonisable, see C37). -/
theorem C74_refused (eng : Clipper) (veq : Vec → Vec → Bool) (fuel : ℕ) (opAreas avoidAreas : List CqFace)
    (a : PocketArgs) (j : Job) :
    (j.toolDiameter = none ∨ j.toolDiameter = some 0 →
      pocket eng veq fuel opAreas avoidAreas a j = .error .typeError) ∧
    (∀ diameter, j.toolDiameter = some diameter → diameter ≠ 0 →
      (∀ f ∈ opAreas ++ avoidAreas, ∀ w ∈ f.outerWire :: f.innerWires, ∃ p, wireToPath veq w j.precision = .ok p) →
      (∃ f ∈ opAreas ++ avoidAreas, pyRound f.zmin 3 ≠ pyRound f.zmax 3) →
      pocket eng veq fuel opAreas avoidAreas a j = .error .valueError) := by
  constructor
  · intro h
    have : j.toolRadius = none := by
      rcases h with h | h <;> simp [Job.toolRadius, h]
    simp only [pocket, this]
  · intro diameter hd h0 hw hf
    have hr : j.toolRadius = some (diameter / 2) := by simp [Job.toolRadius, hd, h0]
    simp only [pocket, hr]
    by_cases hop : ∃ f ∈ opAreas, pyRound f.zmin 3 ≠ pyRound f.zmax 3
    · rw [fromCqFaces_error (fun f hf => hw f (List.mem_append_left _ hf)) hop]; rfl
    · have hav : ∃ f ∈ avoidAreas, pyRound f.zmin 3 ≠ pyRound f.zmax 3 := by
        obtain ⟨f, hf, hz⟩ := hf
        rcases List.mem_append.mp hf with hf | hf
        · exact absurd ⟨f, hf, hz⟩ hop
        · exact ⟨f, hf, hz⟩
      obtain ⟨ops, h1⟩ := mapE_total (f := fun f => PathFace.fromCqFace veq f j.precision) (as := opAreas)
        (fun f hf => fromCqFace_total (fun w hw' => hw f (List.mem_append_left _ hf) w hw')
          (by by_contra hz; exact hop ⟨f, hf, hz⟩))
      rw [h1, ok_bind, fromCqFaces_error (fun f hf => hw f (List.mem_append_right _ hf)) hav]; rfl

/-- A square face of side 6 at depth 1, and a tilted one. -/
def squareFace : CqFace := ⟨innerSquare, [], -1, -1⟩

def tiltedFace : CqFace := ⟨innerSquare, [], -2, -1⟩

def areaJob : Job := { demoInit with toolDiameter := some 2 }

/-- The square is shrunk by the tool radius 1 to side 4, then by 1/2 three times: four contours are cut. -/
example : ∃ cs, pocket cleanEngine exactEq 9 [squareFace] [] {} areaJob = .ok cs ∧
    (cs.filter (fun c => decide (c.kind = .cut))).length = 22 := by
  have : (match pocket cleanEngine exactEq 9 [squareFace] [] {} areaJob with
      | .ok cs => decide ((cs.filter (fun c => decide (c.kind = .cut))).length = 22) | .error _ => false) = true := by
    decide +kernel
  cases h : pocket cleanEngine exactEq 9 [squareFace] [] {} areaJob with
  | error e => rw [h] at this; cases this
  | ok cs =>
    rw [h] at this
    exact ⟨cs, rfl, by simpa using this⟩

example : areaJob.toolDiameter = some 2 ∧ pyRound tiltedFace.zmin 3 ≠ pyRound tiltedFace.zmax 3 ∧
    ∃ p, wireToPath exactEq tiltedFace.outerWire areaJob.precision = .ok p := ⟨rfl, by decide +kernel, _, rfl⟩

end CQ
