import Verif.Model.Mesh64
import Verif.Spec.MeshPath64
import Verif.Props.MeshPath
import Verif.Props.Surface64

/-! # Property C153: 3D surfacing in floating point keeps off the part -/

namespace CQ

theorem interpolateFrom64_engine (m : SurfaceLibs) (z : ℚ) (tris tris' : List Tri) (step : ℚ) (p : Pt) (ps : List Pt) :
    interpolateFrom64 (m.engine z tris) step p ps = interpolateFrom64 (m.engine z tris') step p ps := by
  induction ps generalizing p with
  | nil => rfl
  | cons q ps ih =>
    unfold interpolateFrom64
    rw [ih q]
    rfl

theorem interpolateSequence64_engine (m : SurfaceLibs) (z : ℚ) (tris tris' : List Tri) (step : ℚ) :
    interpolateSequence64 (m.engine z tris) step = interpolateSequence64 (m.engine z tris') step := by
  funext s
  cases s with
  | nil => rfl
  | cons p ps =>
    simp only [interpolateSequence64]
    rw [interpolateFrom64_engine m z tris tris']

theorem surfaceBoundaryMesh64_ok {sq : ℚ → ℚ} {m : SurfaceLibs} {s : CadShape} {z : ℚ} {args : SurfaceArgs} {j : Job}
    {poly : List Pt} {cs : List Motion} (h : surfaceBoundaryMesh64 sq m s z args j poly = .ok cs) :
    ∃ tris, shapeToTriangles s = .ok tris ∧ surfaceBoundary64 sq (m.engine z tris) args j poly = .ok cs := by
  obtain ⟨paths, h1, h⟩ := bind_ok.mp h
  obtain ⟨seqs, h2, h⟩ := bind_ok.mp h
  obtain ⟨tris, h3, h⟩ := bind_ok.mp h
  refine ⟨tris, h3, bind_ok.mpr ⟨paths, h1, bind_ok.mpr ⟨seqs, ?_, h⟩⟩⟩
  rw [interpolateSequence64_engine m z tris []]
  exact h2

/-- A surfacing that succeeds is the one with the engine of the triangles of its shape. -/
theorem surface3dMesh64_engine {sq : ℚ → ℚ} {m : SurfaceLibs} {k : FaceKernel} {s : CadShape} {z : ℚ} {args : SurfaceArgs}
    {oo : ℚ × ℚ} {io : Option (ℚ × ℚ)} {bs : List BoundaryFace} {j : Job} {cs : List Motion}
    (hc : surface3dMesh64 sq m k s z args oo io bs j = .ok cs) :
    cs = [] ∨ ∃ tris, shapeToTriangles s = .ok tris ∧ surface3d64 sq (m.engine z tris) k args oo io bs j = .ok cs := by
  obtain ⟨faces, h1, hc⟩ := bind_ok.mp hc
  obtain ⟨css, h2, hc⟩ := bind_ok.mp hc
  cases hc
  have one : ∀ {f : List Edge × List (List Edge)} {b : List Motion},
      (wirePolygon64 f.1 >>= fun polygon => surfaceBoundaryMesh64 sq m s z args j polygon) = .ok b →
      ∃ tris, shapeToTriangles s = .ok tris ∧
        (wirePolygon64 f.1 >>= fun polygon => surfaceBoundary64 sq (m.engine z tris) args j polygon) = .ok b := by
    intro f b h
    obtain ⟨poly, hp, h⟩ := bind_ok.mp h
    obtain ⟨tris, h3, h4⟩ := surfaceBoundaryMesh64_ok h
    exact ⟨tris, h3, bind_ok.mpr ⟨poly, hp, h4⟩⟩
  by_cases hf : faces.flatten = []
  · left
    rw [hf] at h2
    cases h2
    rfl
  · right
    obtain ⟨f, fs, hf⟩ := List.exists_cons_of_ne_nil hf
    obtain ⟨b, hb, e⟩ := mapE_mem' h2 (a := f) (by rw [hf]; simp)
    obtain ⟨tris, h3, -⟩ := one e
    refine ⟨tris, h3, bind_ok.mpr ⟨faces, h1, bind_ok.mpr ⟨css, mapE_ok.mpr ?_, rfl⟩⟩⟩
    refine (mapE_ok.mp h2).imp ?_
    intro f b e
    obtain ⟨tris', h3', h4⟩ := one e
    rw [h3] at h3'
    cases h3'
    exact h4

/-- C153.  A drop cutter that keeps the tool clear of the triangles it is given up to an error `η`, and faces that are where their
geometry is: then wherever a cutting move of 3D surfacing ends, the tool standing `η` above it has no point of the shape in it. -/
theorem C153_clear_partial {sq : ℚ → ℚ} {m : SurfaceLibs} {cutter : Cutter} {k : FaceKernel} {s : CadShape} {z : ℚ}
    {args : SurfaceArgs} {oo : ℚ × ℚ} {io : Option (ℚ × ℚ)} {bs : List BoundaryFace} {j : Job} {cs : List Motion} {η : ℚ}
    (hm : DropsNear cutter η m.drop) (hu : ∀ f ∈ s.faces, Unplaced f) (hc : surface3dMesh64 sq m k s z args oo io bs j = .ok cs) :
    ∀ c ∈ cs, c.kind.mot ≠ .rapid → ∃ (q : Pt) (h : ℚ), CutsTo q h c ∧ ClearAt cutter (OnShape s) q (h + η) := by
  rcases surface3dMesh64_engine hc with rfl | ⟨tris, h3, h4⟩
  · simp
  · obtain ⟨h, hd, hclear⟩ := hm tris z
    obtain ⟨passes, rfl, hp⟩ := C146_no_gouge (eng := m.engine z tris) hd h4
    intro c hcm hk
    obtain ⟨pass, hpm, hcm⟩ := List.mem_flatten.mp hcm
    obtain ⟨pass, hpm', rfl⟩ := List.mem_map.mp hpm
    obtain ⟨q, y, hq, hy, -⟩ := (hp pass hpm').2 c hcm hk
    refine ⟨q, y, hq, clearAt_up (add_le_add_left hy η) ?_⟩
    intro v hv
    exact hclear q v ((C116_triangles_partial hu h3 v).mpr hv)

/-- C153 on the machine.  In the program of any job with a 3D surfacing computed in floating point in it, the machine moves the tool
past the part on the whole way of every move: raised by half of `K` times the interpolation step, by the error `η` of the drop cutter,
and for the rounding, it has no point of the part in it.  The coordinates are up to `L`; `r` allows for lengths that are measured only
nearly. -/
theorem C153_machine_partial {sq : ℚ → ℚ} {libs : SurfaceLibs} {cutter : Cutter} {k : FaceKernel} {s : CadShape} {z : ℚ}
    {args : SurfaceArgs} {oo : ℚ × ℚ} {io : Option (ℚ × ℚ)} {bs : List BoundaryFace} {K r L η : ℚ}
    (hs : ∀ tris, shapeToTriangles s = .ok tris → SteepNear cutter K η libs.drop tris z) (hu : ∀ f ∈ s.faces, Unplaced f) (hK0 : 0 ≤ K)
    (hl : Measures64 r libs.norm) (hr0 : 0 ≤ r) (hr : r ≤ 2) (hL : 1 ≤ L) (hclip : ClipsWithin L libs.scan)
    (hpoly : ∀ poly, SurfacePolygon k args oo io bs poly → ∀ p ∈ poly, p.Upto L) (hi : 0 < args.interpolationStep)
    (hiL : args.interpolationStep ≤ L) (hid : IsDouble args.interpolationStep) (htd : IsDouble args.topHeight)
    (htop : args.topHeight ≤ 0) (hbot : z ≤ args.topHeight)
    {j0 j1 j2 jf : Job} {before after : List Request} (m : Machine) (h0 : InitOK j0) (hsafe : 0 ≤ j0.opSafeHeight)
    (hrh : 0 ≤ j0.rapidHeight) (hn : ∀ v, j0.toolNumber = some v → NumOK v)
    (hok : ChainOK j0 (before ++ surface3dMeshRequest64 sq libs k s z args oo io bs :: after))
    (h1 : j0.chain before = .ok j1) (h2 : (j1.call (surface3dMeshRequest64 sq libs k s z args oo io bs)).2 = .ok j2)
    (h3 : j2.chain after = .ok jf) (hend : m.ended = false) (htool : ∀ n, j0.toolNumber = some n → m.tool = some n.value) :
    ∃ t m' pre part post cs, jf.toGcode = .ok t ∧ runText m t = some (m', pre ++ part ++ post) ∧
      surface3dMesh64 sq libs k s z args oo io bs (j1.updateTool none).2 = .ok cs ∧ (part.filter isMove).length = cs.length ∧
      ∀ e ∈ part, isMove e = true →
        MovesClear cutter (OnShape s) (K * (r * args.interpolationStep + L / 10 ^ 13) / 2 + η + (1 + 2 * K) / 2000)
          (rnd 3 j0.rapidHeight) e := by
  obtain ⟨t, m', pre, part, post, cs, ht, hrun, hgen, hperf, hfol, -⟩ := C94_followed m h0 hn hok h1 h2 h3 hend htool
  have hbase : SameBase j0 (j1.updateTool none).2 := updateTool_base (chain_base (show SameBase j0 j0 from rfl) h1) _
  have hsafe' : j0.opSafeHeight = (j1.updateTool none).2.opSafeHeight := by rw [hbase]
  have hrapid' : j0.rapidHeight = (j1.updateTool none).2.rapidHeight := by rw [hbase]
  have hgen' : surface3dMesh64 sq libs k s z args oo io bs (j1.updateTool none).2 = .ok cs := hgen
  refine ⟨t, m', pre, part, post, cs, ht, hrun, hgen', hperf.length_eq, ?_⟩
  intro e he hme
  rcases surface3dMesh64_engine hgen' with rfl | ⟨tris, h4, h5⟩
  · have hp : part.filter isMove = [] := List.eq_nil_of_length_eq_zero hperf.length_eq
    have := List.mem_filter.mpr ⟨he, hme⟩
    rw [hp] at this
    cases this
  · obtain ⟨h, H, hd, hη, hK, hclear⟩ := hs tris h4
    obtain ⟨htr, hcs⟩ := C146_between_partial (eng := libs.engine z tris) hd hη hK hK0 hl hr0 hr hL hclip hpoly hi hiL hid htd htop
      hbot (by rw [← hsafe']; exact hsafe) (by rw [← hrapid']; exact hrh) h5
    obtain ⟨c, hc, hfc⟩ := forall2_left (hfol htr) (List.mem_filter.mpr ⟨he, hme⟩)
    obtain ⟨kd, tgt, ctr, hact, hcl⟩ := clearOf_follows hK hfc (hcs c hc)
    rw [← hrapid'] at hcl
    refine ⟨kd, tgt, ctr, hact, ?_⟩
    rcases hcl with hcl | hcl | ⟨hk, a, b, ha, hb, hab⟩
    · exact .inl hcl
    · exact .inr (.inl hcl)
    · exact .inr (.inr ⟨hk, a, b, ha, hb,
        sweepsClear_of (fun p v hv => hclear p v ((C116_triangles_partial hu h4 v).mpr hv)) hab⟩)

/-! ### A concrete drop cutter -/

/-- A drop cutter that puts the tool a thousandth below the highest corner, and lengths measured by the longer side. -/
def topLibs64 : SurfaceLibs where
  scan := zigEngine
  norm := sideEngine.norm
  strict := true
  drop tris z ps := ps.map (fun _ => topOf tris z - 1 / 1000)

theorem topLibs64_steep (r : ℚ) (tris : List Tri) (z : ℚ) : SteepNear (cylinder r) 0 (1 / 1000) topLibs64.drop tris z := by
  refine ⟨fun _ => topOf tris z - 1 / 1000, fun _ => topOf tris z, fun _ => rfl, fun p => by simp, fun p q ρ _ _ => by simp, ?_⟩
  rintro p v ⟨t, ht, hv⟩ ⟨-, hb⟩
  have := (topOf_le tris z).2 t ht v hv
  simp only at hb
  linarith

theorem topLibs64_near (r : ℚ) : DropsNear (cylinder r) (1 / 1000) topLibs64.drop := by
  intro tris z
  refine ⟨fun _ => topOf tris z - 1 / 1000, fun _ => rfl, ?_⟩
  rintro p v ⟨t, ht, hv⟩ ⟨-, hb⟩
  have := (topOf_le tris z).2 t ht v hv
  simp only at hb
  linarith

theorem slope_unplaced : ∀ f ∈ (CadShape.face slopeFace).faces, Unplaced f := by
  intro f hf
  simp only [CadShape.faces, List.mem_singleton] at hf
  subst hf
  exact fun _ => rfl

/-- A case of `C153_clear_partial`, with cutting moves: the sloping face. -/
example : ∃ cs, surface3dMesh64 ridgeSq topLibs64 idleKernel (.face slopeFace) (-5) hillArgs (-1, 0) (some (1, 0)) [hillFace] demoInit = .ok cs ∧
    10 < (cs.filter (fun c => c.kind = .cut)).length ∧
    ∀ c ∈ cs, c.kind.mot ≠ .rapid →
      ∃ (q : Pt) (h : ℚ), CutsTo q h c ∧ ClearAt (cylinder 3) (OnShape (.face slopeFace)) q (h + 1 / 1000) := by
  have h : (match surface3dMesh64 ridgeSq topLibs64 idleKernel (.face slopeFace) (-5) hillArgs (-1, 0) (some (1, 0)) [hillFace] demoInit with
      | .ok cs => decide (10 < (cs.filter (fun c => c.kind = .cut)).length)
      | .error _ => false) = true := by decide +kernel
  cases hr : surface3dMesh64 ridgeSq topLibs64 idleKernel (.face slopeFace) (-5) hillArgs (-1, 0) (some (1, 0)) [hillFace] demoInit with
  | error e => rw [hr] at h; cases h
  | ok cs =>
    rw [hr] at h
    exact ⟨cs, rfl, of_decide_eq_true h, C153_clear_partial (topLibs64_near 3) slope_unplaced hr⟩

/-- A case of `C153_machine_partial`: the sloping face, surfaced in a program. -/
example (m : Machine) (hend : m.ended = false) (htool : ∀ n, demoInit.toolNumber = some n → m.tool = some n.value) :
    ∃ jf t m' pre part post, (demoInit.call (surface3dMeshRequest64 ridgeSq topLibs64 idleKernel (.face slopeFace) (-5) hillArgs (-1, 0)
        (some (1, 0)) [hillFace])).2 = .ok jf ∧ jf.toGcode = .ok t ∧ runText m t = some (m', pre ++ part ++ post) ∧
      ∀ e ∈ part, isMove e = true →
        MovesClear (cylinder 3) (OnShape (.face slopeFace)) (1 / 1000 + 1 / 2000) (rnd 3 demoInit.rapidHeight) e := by
  obtain ⟨cs, -, hr, hc⟩ := call_good (j := demoInit)
    (r := surface3dMeshRequest64 ridgeSq topLibs64 idleKernel (.face slopeFace) (-5) hillArgs (-1, 0) (some (1, 0)) [hillFace]) rfl rfl
    (by unfold SafeName; decide) (by decide +kernel)
  obtain ⟨t, m', pre, part, post, -, ht, hrun, -, -, hcl⟩ := C153_machine_partial (before := []) (after := []) (K := 0) (L := 10)
    (r := 3 / 2) (η := 1 / 1000) (cutter := cylinder 3) (fun tris _ => topLibs64_steep 3 tris (-5)) slope_unplaced (le_refl _) side_measures (by norm_num)
    (by norm_num) (by norm_num) zig_within ridge_polygon (by decide +kernel) (by decide +kernel)
    ⟨1, 0, by norm_num, by norm_num, by norm_num [hillArgs]⟩ isDouble_zero (by decide +kernel) (by decide +kernel) m demo_reach.1
    (by decide +kernel) (by decide +kernel) demo_reach.2.1 ⟨hr, fun _ _ => trivial⟩ rfl hc rfl hend htool
  refine ⟨_, t, m', pre, part, post, hc, ht, hrun, fun e he hme => ?_⟩
  have := hcl e he hme
  norm_num at this ⊢
  exact this

/-- C153 fails for a face that has been put elsewhere, as C116 does: the part reaches from -2 to -1 in job coordinates, but the drop
cutter is given the triangles from -5 to -4; the tool (of diameter 3.175), even raised by half a unit, cuts into the part. -/
theorem C153_violated : ∃ (m : SurfaceLibs) (k : FaceKernel) (f : MeshedFace) (toJob : Vec → Vec) (bottom : ℚ) (b : BoundaryFace)
    (cs : List Motion), DropsNear (cylinder (3175 / 2000)) (1 / 1000) m.drop ∧ Unplaced f ∧ (∀ v, toJob v = ⟨v.x, v.y, v.z + 3⟩) ∧
      (∀ fuse, surface3dMesh64 ridgeSq m k (combineShape fuse [f.moved toJob]) bottom { hillArgs with stepdown := none } (-1, 0)
        (some (1, 0)) [b] demoInit = .ok cs) ∧
      ∃ c ∈ cs, ∃ (q : Pt) (z : ℚ), CutsTo q z c ∧
        ¬ ClearAt (cylinder (3175 / 2000)) (OnShape (.face (f.moved toJob))) q (z + 1 / 2) := by
  have h : (match surface3dMesh64 ridgeSq topLibs64 idleKernel (.face (slopeFace.moved (fun v => ⟨v.x, v.y, v.z + 3⟩))) (-2)
        { hillArgs with stepdown := none } (-1, 0) (some (1, 0)) [hillFace] demoInit with
      | .ok cs => decide (∃ c ∈ cs, c.kind.mot = .linear ∧ c.fin = (⟨11/2, 1⟩ : Pt).at (-2))
      | .error _ => false) = true := by decide +kernel
  split at h
  · rename_i cs hr
    obtain ⟨c, hc, h1, h2⟩ := of_decide_eq_true h
    refine ⟨topLibs64, idleKernel, slopeFace, _, -2, hillFace, cs, topLibs64_near _, fun _ => rfl, fun _ => rfl, fun _ => hr, c, hc,
      _, _, ⟨h1, h2⟩, ?_⟩
    intro hclear
    refine hclear ⟨11/2, 1, -29/20⟩ ⟨slopeFace.moved _, List.mem_singleton.mpr rfl, slopeMesh, 0, 1, 2, _, _, _, ⟨11/2, 1, -89/20⟩,
      rfl, by decide, rfl, rfl, rfl, ⟨9/20, 3/10, 1/4, by norm_num, by norm_num, by norm_num, by norm_num, ?_⟩, ?_⟩ ?_
    · norm_num
    · simp only [MeshedFace.moved, slopeFace]
      norm_num
    · simp only [cylinder]
      norm_num
  · cases h

end CQ
