import Verif.Props.Mesh64
import Verif.Props.SurfaceTotal64

/-! # Property C154 with the triangles of the shape -/

namespace CQ

theorem surfaceBoundaryMesh64_of {sq : ℚ → ℚ} {m : SurfaceLibs} {s : CadShape} {z : ℚ} {args : SurfaceArgs} {j : Job}
    {poly : List Pt} {cs : List Motion} {tris : List Tri} (h3 : shapeToTriangles s = .ok tris)
    (h : surfaceBoundary64 sq (m.engine z tris) args j poly = .ok cs) : surfaceBoundaryMesh64 sq m s z args j poly = .ok cs := by
  obtain ⟨paths, h1, h⟩ := bind_ok.mp h
  obtain ⟨seqs, h2, h⟩ := bind_ok.mp h
  refine bind_ok.mpr ⟨paths, h1, bind_ok.mpr ⟨seqs, ?_, bind_ok.mpr ⟨tris, h3, h⟩⟩⟩
  rw [interpolateSequence64_engine m z [] tris]
  exact h2

/-- C154, with the triangles of the shape (as far as it holds, see the violations): if moreover all faces of the shape are meshed, and it is a
face or a compound, 3D surfacing computed in floating point succeeds. -/
theorem C154_mesh_partial {sq : ℚ → ℚ} (hsq : SquaresWell sq) {M : ℚ} (hM : 1 ≤ M) (hM2 : M ≤ 10 ^ 6) {m : SurfaceLibs} {s : CadShape}
    {z : ℚ} {k : FaceKernel} {args : SurfaceArgs} {oo io : ℚ × ℚ} {bs : List BoundaryFace}
    (ha : ∀ tris ps, (m.drop tris z ps).length = ps.length) (hmesh : ∀ f ∈ s.faces, ProperMesh f) (hother : ∀ fs, s = .other fs → fs = [])
    (hk : KernelWorks k) (hflat : ∀ b ∈ bs, b.flat = true) (hi : 0 < args.interpolationStep) (ht : |args.topHeight| ≤ M)
    (hs : ∀ s, args.stepdown = some s → |s| ≤ M) (hf : HasFirstPass64 args.stepdown args.topHeight z)
    (hw : ∀ w, SurfacedOutline k (b64 (b64 (args.toolDiameter * oo.1) + oo.2)) bs w → Flattenable w ∧
      ∀ poly, wirePolygon64 w = .ok poly → CanSurface64 M (m.engine z []) args poly) (j : Job) :
    (∃ cs, surface3dMesh64 sq m k s z args oo (some io) bs j = .ok cs) ∧
      ∃ j', (j.call (surface3dMeshRequest64 sq m k s z args oo (some io) bs)).2 = .ok j' := by
  obtain ⟨tris, h3⟩ := (C116_meshed s).mpr ⟨hmesh, hother⟩
  have key : ∀ j, ∃ cs, surface3dMesh64 sq m k s z args oo (some io) bs j = .ok cs := by
    intro j
    obtain ⟨⟨cs, h⟩, -⟩ := C154_made_partial (eng := m.engine z tris) (oo := oo) (io := io) hsq hM hM2 (ha tris) hk hflat hi ht hs hf hw j
    obtain ⟨faces, h1, h⟩ := bind_ok.mp h
    obtain ⟨css, h2, h⟩ := bind_ok.mp h
    refine ⟨css.flatten, bind_ok.mpr ⟨faces, h1, bind_ok.mpr ⟨css, mapE_ok.mpr ?_, rfl⟩⟩⟩
    refine (mapE_ok.mp h2).imp ?_
    intro f b e
    obtain ⟨poly, hp, e⟩ := bind_ok.mp e
    exact bind_ok.mpr ⟨poly, hp, surfaceBoundaryMesh64_of h3 e⟩
  refine ⟨key j, ?_⟩
  obtain ⟨cs, hc⟩ := key (j.updateTool none).2
  exact call_made rfl hc

/-- A case of `C154_mesh_partial`: the sloping face. -/
example (j : Job) : ∃ j', (j.call (surface3dMeshRequest64 ridgeSq topLibs64 idleKernel (.face slopeFace) (-5) hillArgs (-1, 0) (some (1, 0))
    [hillFace])).2 = .ok j' := by
  have hstep : hillArgs.stepdown = some (-2) := rfl
  refine (C154_mesh_partial squaresWell_b64 (M := 16) (by norm_num) (by norm_num) (fun tris ps => by simp [topLibs64]) ?_
    (fun fs h => by cases h) ⟨fun w d => ⟨_, rfl⟩, fun _ _ => rfl⟩ (by simp [hillFace]) (by decide +kernel) (by decide +kernel) ?_ ?_ ?_ j).2
  · intro f hf
    simp only [CadShape.faces, List.mem_singleton] at hf
    subst hf
    exact ⟨slopeMesh, rfl, by decide⟩
  · intro s h
    rw [hstep] at h
    cases h
    norm_num
  · intro s h _
    rw [hstep] at h
    cases h
    constructor <;> norm_num [hillArgs]
  · rintro w ⟨b, hb, ws, h, hw⟩
    cases h
    rw [List.mem_singleton] at hb hw
    subst hb hw
    refine ⟨?_, ?_⟩
    · intro e he
      have : (hillFace.outer.all (fun e => decide (e.geom = .line))) = true := by decide +kernel
      exact .inl (of_decide_eq_true (List.all_eq_true.mp this e he))
    · intro poly hp
      have e2 : wirePolygon64 hillFace.outer = .ok zigPoly := by rfl
      rw [e2] at hp
      cases hp
      exact zigPoly_can

end CQ
