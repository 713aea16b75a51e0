import Verif.Props.Solid
import Verif.Props.Gouge64

/-! # C155: pockets -/

namespace CQ

/-- A cylinder a millionth of a millimetre thinner, moved by `2^-28` mm and lowered by a hundred-thousandth. -/
theorem spares_float {S : Solid} {R ρ ε ε' : ℚ} {p p' : Pt} {z z' : ℚ} (hρ : 0 ≤ ρ) (hR : ρ + 1 / 1000000 ≤ R) (h : Spares S R ε p z)
    (hp : PtNear (2 ^ (-28 : ℤ)) p' p) (hz : z + ε ≤ z' + ε') : Spares S ρ ε' p' z' := by
  intro q ζ hq hζ
  have h1 := h q ζ hq (by linarith)
  by_contra hc
  rw [not_le] at hc
  have hd : sqDist p p' ≤ (1 / 1000000) ^ 2 := by
    obtain ⟨a, b⟩ := hp
    rw [abs_le] at a b
    norm_num at a b
    simp only [sqDist]
    nlinarith [a.1, a.2, b.1, b.2]
  have := sqDist_triangle_lt (a := 1 / 1000000) (by norm_num) hρ hd hc
  nlinarith

/-- C155 for pockets, partial: as C135 for pockets, with the offsets and the stepover as they are computed, a millionth of a millimetre more
distance, and a hundred-thousandth more height; straight ways between places where the tool can be have to be free, as there. -/
theorem C155_pocket_partial {S : Solid} {σ σ' ε ε' δ δ' : ℚ} {K₀ K : List IPt → Prop} {e : IntClipper} {lib : MathLib} {j : Job}
    (he : IntEngine K₀ K δ (scaledPrecision j.precision) e) (hbox : IntBoxes (scaledPrecision j.precision) e)
    (hl : SquaresWell lib.sq) (hδ : δ' = δ + 3 * resolution)
    {veq : Vec → Vec → Bool} {fuel : ℕ} {opAreas avoidAreas : List CqFace} {a : PocketArgs} {tool : Option Tool}
    (hsafe : 0 < j.opSafeHeight) (hε : 0 ≤ ε') (hεε : ε' + 1 / 100000 ≤ ε) (hσ : σ' + 1 / 1000000 ≤ σ)
    (hsd : ∀ s, a.stepdown = some s → IsDouble s ∧ (s = 0 ∨ 1 / 1000 ≤ s ∧ s ≤ 1000))
    (hD : ∀ c ∈ opAreas ++ avoidAreas, ∀ f, FlatFace veq j.precision c f → f.All (Rounded K₀))
    (hS : ∀ diameter outer inner avoidOuter avoidInner stepover faces avoidFaces areas avoids regions, j.toolDiameter = some diameter →
      OffsetNear (diameter / 2) (if avoidAreas ≠ [] ∧ a.outerOffset = none then (0, 0) else offsetParts (-1) a.outerOffset) outer →
      OffsetNear (diameter / 2) (offsetParts 1 a.innerOffset) inner → OffsetNear (diameter / 2) (offsetParts 1 a.avoidOuterOffset) avoidOuter →
      OffsetNear (diameter / 2) (offsetParts (-1) a.avoidInnerOffset) avoidInner →
      OffsetNear (diameter / 2) (offsetParts (1 / 2) a.stepover) stepover →
      List.Forall₂ (FlatFace veq j.precision) opAreas faces → List.Forall₂ (FlatFace veq j.precision) avoidAreas avoidFaces →
      List.Forall₂ (OffsetFaces e.scaled outer inner j.precision) faces areas →
      List.Forall₂ (OffsetFaces e.scaled avoidOuter avoidInner j.precision) avoidFaces avoids →
      buildPocketOps e.scaled areas.flatten avoids.flatten = .ok regions →
      2 * δ' < stepover ∧ (∀ f ∈ faces, InBox (2 ^ 20) f.outer ∧ -1000 ≤ f.depth) ∧
      OpenPocket S σ' ε' δ' (diameter / 2) e.scaled j.precision outer inner avoidOuter avoidInner faces avoidFaces areas avoids regions) :
    CallSpares S σ ε j (pocketRequest64 lib e.scaled veq fuel opAreas avoidAreas a tool) := by
  subst hδ
  obtain ⟨c1, c2, c3, c4, c5, c6, c7, c8, c9⟩ := C113_contracts he
  have heng := engine64_of he hbox hl
  have hsd' : ∀ s, a.stepdown = some s → 0 ≤ s ∧ IsDouble s := by
    intro s hs
    obtain ⟨h1, rfl | ⟨h2, -⟩⟩ := hsd s hs
    · exact ⟨le_rfl, h1⟩
    · exact ⟨by linarith, h1⟩
  intro cs hcs
  have hcs : pocket64 lib e.scaled veq fuel opAreas avoidAreas a j = .ok cs := hcs
  unfold pocket64 at hcs
  cases hr : j.toolRadius64 with
  | none => rw [hr] at hcs; cases hcs
  | some r =>
    rw [hr] at hcs
    obtain ⟨diameter, hd, hrd⟩ : ∃ d, j.toolDiameter = some d ∧ r = b64 (d / 2) := by
      unfold Job.toolRadius64 Job.toolRadius at hr
      cases hj : j.toolDiameter with
      | none => rw [hj] at hr; cases hr
      | some d =>
        rw [hj] at hr
        by_cases h0 : d = 0
        · simp [h0] at hr
        · simp only [h0, if_false, Option.map_some, Option.some.injEq] at hr
          exact ⟨d, rfl, hr.symm⟩
    obtain ⟨faces, g1, hcs⟩ := bind_ok.mp hcs
    obtain ⟨avoidFaces, g2, hcs⟩ := bind_ok.mp hcs
    have hclip := hcs
    unfold pocketClipper64 at hcs
    obtain ⟨areas, g3, hcs⟩ := bind_ok.mp hcs
    obtain ⟨avoids, g4, hcs⟩ := bind_ok.mp hcs
    obtain ⟨regions, g5, -⟩ := bind_ok.mp hcs
    have f1 : List.Forall₂ (FlatFace veq j.precision) opAreas faces := (mapE_ok.mp g1).imp fun _ _ => fromCqFace_spec
    have f2 : List.Forall₂ (FlatFace veq j.precision) avoidAreas avoidFaces := (mapE_ok.mp g2).imp fun _ _ => fromCqFace_spec
    have f3 := (mapE_ok.mp g3).imp fun _ _ h => offsetPolyface_spec h
    have f4 := (mapE_ok.mp g4).imp fun _ _ h => offsetPolyface_spec h
    have ho : OffsetNear (diameter / 2) (if avoidAreas ≠ [] ∧ a.outerOffset = none then (0, 0) else offsetParts (-1) a.outerOffset)
        (calculateOffset64 r (if avoidAreas ≠ [] ∧ a.outerOffset = none then some (.mult 0) else a.outerOffset) (some (-1))) := by
      have := offset64_near hrd (-1) (if avoidAreas ≠ [] ∧ a.outerOffset = none then some (.mult 0) else a.outerOffset)
      by_cases hc : avoidAreas ≠ [] ∧ a.outerOffset = none
      · rw [if_pos hc] at this ⊢
        rw [if_pos hc]
        exact this
      · rw [if_neg hc] at this ⊢
        rw [if_neg hc]
        exact this
    obtain ⟨hstep, hbx, ho⟩ := hS diameter _ _ _ _ (calculateOffset64 r a.stepover (some (1 / 2))) faces avoidFaces areas avoids regions hd ho
      (offset64_near hrd _ _) (offset64_near hrd _ _) (offset64_near hrd _ _) (offset64_near hrd _ _) f1 f2 f3 f4 g5
    have hB : (2 : ℚ) ^ 20 + max (calculateOffset64 r (if avoidAreas ≠ [] ∧ a.outerOffset = none then some (.mult 0) else a.outerOffset)
        (some (-1))) 0 ≤ 2 ^ 20 := by rw [max_eq_right ho.shrunk]; norm_num
    have hpos : 0 ≤ calculateOffset64 r a.stepover (some (1 / 2)) := by linarith [c1.nonneg]
    obtain ⟨-, hcon, -⟩ := pocket64_path heng hclip hsafe hpos hsd' hB (fun f hf => (hbx f hf).1)
    refine ⟨tracks_connected hcon, ?_⟩
    intro R hR ρ hρ hle c hc hkc
    have hRd : R = diameter / 2 := by
      unfold Job.toolRadius at hR
      rw [hd] at hR
      dsimp only at hR
      split at hR
      · cases hR
      · exact (Option.some.inj hR).symm
    obtain ⟨areas', avoids', regions', k3, k4, k5, hall⟩ := pocket64_feeds heng c1 c5 hclip hsafe hstep hsd hB
      (fun f hf => (hbx f hf).1) (fun f hf => (hbx f hf).2)
    rw [g3] at k3; cases k3
    rw [g4] at k4; cases k4
    rw [g5] at k5; cases k5
    have hDf : ∀ f ∈ faces ++ avoidFaces, f.All (Rounded K₀) := by
      intro f hf
      rcases List.mem_append.mp hf with hf | hf
      · obtain ⟨c, hc, hcf⟩ := forall₂_mem_right f1 hf
        exact hD c (by simp [hc]) f hcf
      · obtain ⟨c, hc, hcf⟩ := forall₂_mem_right f2 hf
        exact hD c (by simp [hc]) f hcf
    obtain ⟨x, hx, contours, d, -, d1, d2, p, q, p', q', hp, hq, hnp, hnq, hkl, hfin, hst⟩ := hall c hc hkc
    have key : ∀ y, InRegion (δ + 3 * resolution) x y → ToolIn faces avoidFaces (5 * (δ + 3 * resolution)) _ _ _ x.depth y := fun y hy =>
      region_tool c1 c2 c6 c8 (s := -calculateOffset64 r
          (if avoidAreas ≠ [] ∧ a.outerOffset = none then some (.mult 0) else a.outerOffset) (some (-1)))
        (si := -calculateOffset64 r a.avoidInnerOffset (some (-1)))
        (by linarith [ho.shrunk]) hDf (by rw [neg_neg]; exact f3) (by rw [neg_neg]; exact f4) g5 ho.rings hx (ho.void x hx) ho.holes
        (ho.separate x hx) hy
    have hway : ∀ t, 0 ≤ t → t ≤ 1 → ∀ z, d ≤ z → Spares S ρ ε (p'.lerp q' t) z := by
      intro t t0 t1 z hz
      have : Spares S (ρ + 1 / 1000000) ε' (p.lerp q t) x.depth := by
        rcases ho.links x hx p q _ ⟨t, t0, t1, rfl⟩ (key p hp) (key q hq) with h | h
        · exact toolIn_spares (ho.free x hx) hε (by linarith) (by linarith [ho.inset]) (by linarith [ho.outset])
            (fun hne => by linarith [ho.around hne]) h
        · exact spares_mono h (by linarith) (by rw [← hRd]; linarith) le_rfl
      exact spares_float hρ le_rfl this (lerp_near hnp hnq t0 t1) (by linarith)
    rcases hst with ⟨rfl, rfl, hst⟩ | ⟨hst, -⟩
    · refine ⟨p', p', _, _, hst, hfin, ?_⟩
      rw [hkl]
      intro t t0 t1
      refine hway t t0 t1 _ ?_
      nlinarith
    · refine ⟨p', q', _, _, hst, hfin, ?_⟩
      rw [hkl]
      intro t t0 t1
      refine hway t t0 t1 _ ?_
      nlinarith

end CQ
