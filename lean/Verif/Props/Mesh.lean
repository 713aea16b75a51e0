import Verif.Spec.Mesh
import Verif.Props.Surface

/-! # C116: the heights of 3D surfacing come from the part, where it is -/

namespace CQ

theorem node_ok {t : Triangulation} {n : ℕ} {v : Vec} : t.node n = .ok v ↔ ∃ i, n = i + 1 ∧ t.nodes[i]? = some v := by
  unfold Triangulation.node
  cases n with
  | zero => simp
  | succ i =>
    simp only [Nat.add_eq_zero_iff, one_ne_zero, and_false, if_false, Nat.add_sub_cancel, Nat.add_right_cancel_iff]
    cases h : t.nodes[i]? with
    | none => simp [h]
    | some w => simp [h]

theorem nodeTriangle_ok {t : Triangulation} {n : ℕ × ℕ × ℕ} {d : Tri} : nodeTriangle t n = .ok d ↔
    ∃ a b c, n = (a + 1, b + 1, c + 1) ∧ t.nodes[a]? = some d.a ∧ t.nodes[b]? = some d.b ∧ t.nodes[c]? = some d.c := by
  obtain ⟨x, y, z⟩ := n
  unfold nodeTriangle
  constructor
  · intro h
    obtain ⟨p, h1, h⟩ := bind_ok.mp h
    obtain ⟨q, h2, h⟩ := bind_ok.mp h
    obtain ⟨r, h3, h⟩ := bind_ok.mp h
    cases h
    obtain ⟨a, ha, g1⟩ := node_ok.mp h1
    obtain ⟨b, hb, g2⟩ := node_ok.mp h2
    obtain ⟨c, hc, g3⟩ := node_ok.mp h3
    simp only at ha hb hc
    exact ⟨a, b, c, by rw [ha, hb, hc], g1, g2, g3⟩
  · rintro ⟨a, b, c, h, h1, h2, h3⟩
    cases h
    exact bind_ok.mpr ⟨_, node_ok.mpr ⟨a, rfl, h1⟩, bind_ok.mpr ⟨_, node_ok.mpr ⟨b, rfl, h2⟩,
      bind_ok.mpr ⟨_, node_ok.mpr ⟨c, rfl, h3⟩, rfl⟩⟩⟩

/-- The points of the triangles read from a face, put in place, are the points of the face. -/
theorem faceTriangles_points {f : MeshedFace} {tris : List Tri} (h : faceTriangles f = .ok tris) (v : Vec) :
    (∃ t ∈ tris, ∃ u, OnTriangle t u ∧ v = f.place u) ↔ OnFace f v := by
  unfold faceTriangles at h
  cases hm : f.mesh with
  | none => rw [hm] at h; cases h
  | some t =>
    rw [hm] at h
    constructor
    · rintro ⟨d, hd, u, hu, rfl⟩
      obtain ⟨n, hn, e⟩ := mapE_mem h hd
      obtain ⟨a, b, c, rfl, h1, h2, h3⟩ := nodeTriangle_ok.mp e
      exact ⟨t, a, b, c, _, _, _, u, hm, hn, h1, h2, h3, hu, rfl⟩
    · rintro ⟨t', a, b, c, p, q, r, u, hm', hn, h1, h2, h3, hu, rfl⟩
      rw [hm] at hm'
      cases hm'
      obtain ⟨d, hd, e⟩ := mapE_mem' h hn
      obtain ⟨a', b', c', e', g1, g2, g3⟩ := nodeTriangle_ok.mp e
      simp only [Prod.mk.injEq, Nat.add_right_cancel_iff] at e'
      obtain ⟨rfl, rfl, rfl⟩ := e'
      rw [h1] at g1; rw [h2] at g2; rw [h3] at g3
      simp only [Option.some.injEq] at g1 g2 g3
      refine ⟨d, hd, u, ?_, rfl⟩
      obtain ⟨da, db, dc⟩ := d
      simp only at g1 g2 g3
      subst g1 g2 g3
      exact hu

/-- C116, mesh.  When all faces of the shape are where their geometry is, the triangles handed to the drop cutter make up exactly
the shape. -/
theorem C116_triangles_partial {s : CadShape} {tris : List Tri} (hu : ∀ f ∈ s.faces, Unplaced f)
    (h : shapeToTriangles s = .ok tris) (v : Vec) : (∃ t ∈ tris, OnTriangle t v) ↔ OnShape s v := by
  have one : ∀ (f : MeshedFace) (ts : List Tri), Unplaced f → faceTriangles f = .ok ts →
      ((∃ t ∈ ts, OnTriangle t v) ↔ OnFace f v) := by
    intro f ts hf ht
    rw [← faceTriangles_points ht]
    simp only [show ∀ u, f.place u = u from hf]
    simp
  cases s with
  | face f =>
    rw [one f tris (hu f (by simp [CadShape.faces])) h]
    simp [OnShape, CadShape.faces]
  | compound fs =>
    obtain ⟨rs, h1, h⟩ := bind_ok.mp h
    cases h
    constructor
    · rintro ⟨t, ht, hv⟩
      obtain ⟨r, hr, ht⟩ := List.mem_flatten.mp ht
      obtain ⟨f, hf, e⟩ := mapE_mem h1 hr
      exact ⟨f, hf, (one f r (hu f hf) e).mp ⟨t, ht, hv⟩⟩
    · rintro ⟨f, hf, hv⟩
      obtain ⟨r, hr, e⟩ := mapE_mem' h1 hf
      obtain ⟨t, ht, hv⟩ := (one f r (hu f hf) e).mpr hv
      exact ⟨t, List.mem_flatten.mpr ⟨r, hr, ht⟩, hv⟩
  | other fs =>
    cases fs with
    | nil =>
      cases h
      simp [OnShape, CadShape.faces]
    | cons f fs => cases h

/-- Which shapes are meshed: faces and compounds of faces with proper meshes, and shapes without faces. -/
theorem C116_meshed (s : CadShape) : (∃ tris, shapeToTriangles s = .ok tris) ↔
    (∀ f ∈ s.faces, ProperMesh f) ∧ ∀ fs, s = .other fs → fs = [] := by
  have one : ∀ f : MeshedFace, (∃ ts, faceTriangles f = .ok ts) ↔ ProperMesh f := by
    intro f
    unfold faceTriangles ProperMesh
    cases hm : f.mesh with
    | none => simp
    | some t =>
      constructor
      · rintro ⟨ts, h⟩
        refine ⟨t, rfl, ?_⟩
        intro n hn i hi
        obtain ⟨d, -, e⟩ := mapE_mem' h hn
        obtain ⟨a, b, c, rfl, h1, h2, h3⟩ := nodeTriangle_ok.mp e
        have g1 := (List.getElem?_eq_some_iff.mp h1).1
        have g2 := (List.getElem?_eq_some_iff.mp h2).1
        have g3 := (List.getElem?_eq_some_iff.mp h3).1
        simp only [List.mem_cons, List.not_mem_nil, or_false] at hi
        omega
      · rintro ⟨t', e, h⟩
        cases e
        apply mapE_total
        intro n hn
        have ha := h n hn n.1 (by simp)
        have hb := h n hn n.2.1 (by simp)
        have hc := h n hn n.2.2 (by simp)
        obtain ⟨a, b, c⟩ := n
        simp only at ha hb hc
        refine ⟨⟨t.nodes[a - 1], t.nodes[b - 1], t.nodes[c - 1]⟩, nodeTriangle_ok.mpr ⟨a - 1, b - 1, c - 1, ?_, ?_, ?_, ?_⟩⟩
        · simp only [Prod.mk.injEq]; omega
        · simp
        · simp
        · simp
  cases s with
  | face f =>
    have : shapeToTriangles (.face f) = faceTriangles f := rfl
    rw [this, one]
    simp [CadShape.faces]
  | compound fs =>
    constructor
    · rintro ⟨ts, h⟩
      obtain ⟨rs, h1, -⟩ := bind_ok.mp h
      refine ⟨?_, by simp⟩
      intro f hf
      obtain ⟨r, -, e⟩ := mapE_mem' h1 hf
      exact (one f).mp ⟨r, e⟩
    · rintro ⟨h, -⟩
      obtain ⟨rs, e⟩ := mapE_total (f := faceTriangles) (as := fs) (fun f hf => (one f).mpr (h f hf))
      exact ⟨_, bind_ok.mpr ⟨rs, e, rfl⟩⟩
  | other fs =>
    cases fs with
    | nil => simp [shapeToTriangles, CadShape.faces]
    | cons f fs => simp [shapeToTriangles]

theorem interpolateFrom_engine (m : SurfaceLibs) (z : ℚ) (tris tris' : List Tri) (step : ℚ) (p : Pt) (ps : List Pt) :
    interpolateFrom (m.engine z tris) step p ps = interpolateFrom (m.engine z tris') step p ps := by
  induction ps generalizing p with
  | nil => rfl
  | cons q ps ih =>
    unfold interpolateFrom
    rw [ih q]
    rfl

theorem interpolateSequence_engine (m : SurfaceLibs) (z : ℚ) (tris tris' : List Tri) (step : ℚ) :
    interpolateSequence (m.engine z tris) step = interpolateSequence (m.engine z tris') step := by
  funext s
  cases s with
  | nil => rfl
  | cons p ps =>
    simp only [interpolateSequence]
    rw [interpolateFrom_engine m z tris tris']

theorem surfaceBoundaryMesh_ok {m : SurfaceLibs} {s : CadShape} {z : ℚ} {args : SurfaceArgs} {j : Job} {poly : List Pt}
    {cs : List Motion} (h : surfaceBoundaryMesh m s z args j poly = .ok cs) :
    ∃ tris, shapeToTriangles s = .ok tris ∧ surfaceBoundary (m.engine z tris) args j poly = .ok cs := by
  obtain ⟨paths, h1, h⟩ := bind_ok.mp h
  obtain ⟨seqs, h2, h⟩ := bind_ok.mp h
  obtain ⟨tris, h3, h⟩ := bind_ok.mp h
  refine ⟨tris, h3, bind_ok.mpr ⟨paths, h1, bind_ok.mpr ⟨seqs, ?_, h⟩⟩⟩
  rw [interpolateSequence_engine m z tris []]
  exact h2

theorem clearAt_up {c : Cutter} {points : Vec → Prop} {p : Pt} {z z' : ℚ} (hz : z ≤ z') (h : ClearAt c points p z) :
    ClearAt c points p z' := by
  intro v hv hb
  refine h v hv ?_
  have := c.up _ (z' - z) (by linarith) hb
  simpa using this

/-- C116.  A drop cutter that keeps the tool clear of the triangles it is given, and faces that are where their geometry is: then
wherever a cutting move of 3D surfacing ends, the tool standing there has no point of the shape in it. -/
theorem C116_clear_partial {m : SurfaceLibs} {cutter : Cutter} {k : FaceKernel} {s : CadShape} {z : ℚ} {args : SurfaceArgs}
    {oo : ℚ × ℚ} {io : Option (ℚ × ℚ)} {bs : List BoundaryFace} {j : Job} {cs : List Motion} (hm : DropsClear cutter m.drop)
    (hu : ∀ f ∈ s.faces, Unplaced f) (hc : surface3dMesh m k s z args oo io bs j = .ok cs) :
    ∀ c ∈ cs, c.kind.mot ≠ .rapid → ∃ (q : Pt) (h : ℚ), CutsTo q h c ∧ z ≤ h ∧ ClearAt cutter (OnShape s) q h := by
  obtain ⟨faces, -, hc⟩ := bind_ok.mp hc
  obtain ⟨css, h2, hc⟩ := bind_ok.mp hc
  cases hc
  intro c hcm hk
  obtain ⟨b, hb, hcm⟩ := List.mem_flatten.mp hcm
  obtain ⟨f, -, hf⟩ := forall2_right (mapE_ok.mp h2) hb
  obtain ⟨poly, -, hf⟩ := bind_ok.mp hf
  obtain ⟨tris, h3, h4⟩ := surfaceBoundaryMesh_ok hf
  obtain ⟨h, hd, hclear⟩ := hm tris z
  obtain ⟨depths, passes, -, rfl, h5⟩ := C56_boundary (eng := m.engine z tris) hd h4
  obtain ⟨pass, hp, hcm⟩ := List.mem_flatten.mp hcm
  obtain ⟨d, -, hd⟩ := forall2_right h5 hp
  obtain ⟨hl, q, hq⟩ := hd c hcm hk
  refine ⟨q, _, ⟨hl, hq⟩, le_trans (hclear q).1 (le_max_right _ _), ?_⟩
  refine clearAt_up (le_max_right d (h q)) ?_
  intro v hv
  exact (hclear q).2 v ((C116_triangles_partial hu h3 v).mpr hv)

/-- C116 fails for every face that has been put elsewhere: moving a face, as the transformation to job coordinates does, changes
nothing in the triangles. -/
theorem C116_violated_placement (f : MeshedFace) (motion : Vec → Vec) :
    shapeToTriangles (.face (f.moved motion)) = shapeToTriangles (.face f) := rfl

/-! ### A concrete drop cutter -/

/-- The height of the highest corner, but at least `z`. -/
def topOf (tris : List Tri) (z : ℚ) : ℚ := tris.foldr (fun t h => max (max t.a.z (max t.b.z t.c.z)) h) z

theorem topOf_le (tris : List Tri) (z : ℚ) : z ≤ topOf tris z ∧ ∀ t ∈ tris, ∀ v, OnTriangle t v → v.z ≤ topOf tris z := by
  induction tris with
  | nil => exact ⟨le_refl _, by simp⟩
  | cons t ts ih =>
    have e : topOf (t :: ts) z = max (max t.a.z (max t.b.z t.c.z)) (topOf ts z) := rfl
    rw [e]
    refine ⟨le_trans ih.1 (le_max_right _ _), ?_⟩
    intro t' ht' v hv
    rcases List.mem_cons.mp ht' with rfl | ht'
    · refine le_trans ?_ (le_max_left _ _)
      obtain ⟨α, β, γ, h1, h2, h3, h4, rfl⟩ := hv
      simp only
      set M := max t'.a.z (max t'.b.z t'.c.z) with hM
      have ha : t'.a.z ≤ M := le_max_left _ _
      have hb : t'.b.z ≤ M := le_trans (le_max_left _ _) (le_max_right _ _)
      have hc : t'.c.z ≤ M := le_trans (le_max_right _ _) (le_max_right _ _)
      have : M = α * M + β * M + γ * M := by rw [← add_mul, ← add_mul, h4, one_mul]
      rw [this]
      have := mul_le_mul_of_nonneg_left ha h1
      have := mul_le_mul_of_nonneg_left hb h2
      have := mul_le_mul_of_nonneg_left hc h3
      linarith
    · exact le_trans (ih.2 t' ht' v hv) (le_max_right _ _)

/-- A drop cutter that puts the tool above the highest corner. -/
def topLibs : SurfaceLibs where
  scan := hillEngine.scan
  norm := hillEngine.norm
  strict := hillEngine.strict
  drop tris z ps := ps.map (fun _ => topOf tris z)

theorem topLibs_clear (r : ℚ) : DropsClear (cylinder r) topLibs.drop := by
  intro tris z
  refine ⟨fun _ => topOf tris z, fun _ => rfl, fun p => ⟨(topOf_le tris z).1, ?_⟩⟩
  rintro v ⟨t, ht, hv⟩ ⟨-, hb⟩
  have := (topOf_le tris z).2 t ht v hv
  simp only at hb
  linarith

/-- A sloping face, rising from -5 to -4 over a length of 10. -/
def slopeMesh : Triangulation where
  nodes := [⟨0, 0, -5⟩, ⟨10, 0, -4⟩, ⟨10, 4, -4⟩, ⟨0, 4, -5⟩]
  triangles := [(1, 2, 3), (1, 3, 4)]

def slopeFace : MeshedFace where
  mesh := some slopeMesh
  place v := v

/-- The hypotheses of `C116_clear_partial`, with cutting moves. -/
example : (∀ f ∈ (CadShape.face slopeFace).faces, Unplaced f) ∧ ProperMesh slopeFace ∧
    (match surface3dMesh topLibs idleKernel (.face slopeFace) (-5) hillArgs (-1, 0) (some (1, 0)) [hillFace] demoInit with
      | .ok cs => decide (10 < (cs.filter (fun c => c.kind = .cut)).length)
      | .error _ => false) = true := by
  refine ⟨?_, ⟨slopeMesh, rfl, by decide⟩, by decide +kernel⟩
  intro f hf
  simp only [CadShape.faces, List.mem_singleton] at hf
  subst hf
  intro v
  rfl

/-- C116 fails for a part whose top is at the height -3 of the world, with the job plane there: the part reaches from -2 to -1 in
job coordinates, but the drop cutter is given the triangles from -5 to -4; the tool (of diameter 3.175) cuts into the part. -/
theorem C116_violated : ∃ (m : SurfaceLibs) (k : FaceKernel) (f : MeshedFace) (toJob : Vec → Vec) (bottom : ℚ) (b : BoundaryFace)
    (cs : List Motion), DropsClear (cylinder (3175 / 2000)) m.drop ∧ Unplaced f ∧ (∀ v, toJob v = ⟨v.x, v.y, v.z + 3⟩) ∧
      (∀ fuse, surface3dMesh m k (combineShape fuse [f.moved toJob]) bottom { hillArgs with stepdown := none } (-1, 0)
        (some (1, 0)) [b] demoInit = .ok cs) ∧
      (∀ v, OnShape (.face (f.moved toJob)) v → bottom ≤ v.z) ∧
      ∃ c ∈ cs, ∃ (q : Pt) (z : ℚ), CutsTo q z c ∧ ¬ ClearAt (cylinder (3175 / 2000)) (OnShape (.face (f.moved toJob))) q z := by
  have h : (match surface3dMesh topLibs idleKernel (.face (slopeFace.moved (fun v => ⟨v.x, v.y, v.z + 3⟩))) (-2)
        { hillArgs with stepdown := none } (-1, 0) (some (1, 0)) [hillFace] demoInit with
      | .ok cs => decide (∃ c ∈ cs, c.kind.mot = .linear ∧ c.fin = (⟨11/2, 1⟩ : Pt).at (-2))
      | .error _ => false) = true := by decide +kernel
  split at h
  · rename_i cs hr
    obtain ⟨c, hc, h1, h2⟩ := of_decide_eq_true h
    refine ⟨topLibs, idleKernel, slopeFace, _, -2, hillFace, cs, topLibs_clear _, fun _ => rfl, fun _ => rfl, fun _ => hr, ?_, c, hc,
      _, _, ⟨h1, h2⟩, ?_⟩
    · rintro v ⟨f, hf, t, a, b, c, p, q, r, u, ht, hn, hp, hq, hr, hu, rfl⟩
      simp only [CadShape.faces, List.mem_singleton] at hf
      subst hf
      have ht' : slopeMesh = t := by simpa [MeshedFace.moved, slopeFace] using ht
      subst ht'
      obtain ⟨α, β, γ, g1, g2, g3, g4, rfl⟩ := hu
      have hz : ∀ (i : ℕ) (w : Vec), slopeMesh.nodes[i]? = some w → -5 ≤ w.z := by
        intro i w hw
        have := List.mem_of_getElem? hw
        simp only [slopeMesh, List.mem_cons, List.not_mem_nil, or_false] at this
        rcases this with rfl | rfl | rfl | rfl <;> norm_num
      have e1 := mul_le_mul_of_nonneg_left (hz _ _ hp) g1
      have e2 := mul_le_mul_of_nonneg_left (hz _ _ hq) g2
      have e3 := mul_le_mul_of_nonneg_left (hz _ _ hr) g3
      simp only [MeshedFace.moved, slopeFace]
      linarith
    · intro hclear
      refine hclear ⟨11/2, 1, -29/20⟩ ⟨slopeFace.moved _, List.mem_singleton.mpr rfl, slopeMesh, 0, 1, 2, _, _, _, ⟨11/2, 1, -89/20⟩,
        rfl, by decide, rfl, rfl, rfl, ⟨9/20, 3/10, 1/4, by norm_num, by norm_num, by norm_num, by norm_num, ?_⟩, ?_⟩ ?_
      · norm_num
      · simp only [MeshedFace.moved, slopeFace]
        norm_num
      · simp only [cylinder]
        norm_num
  · cases h

end CQ
