import Verif.Spec.MeshPath
import Verif.Props.Mesh
import Verif.Props.SurfacePath

/-! # C116: the tool and the part between the sampled points, and on the machine -/

namespace CQ

/-- A surfacing that succeeds is the one with the engine of the triangles of its shape. -/
theorem surface3dMesh_engine {m : SurfaceLibs} {k : FaceKernel} {s : CadShape} {z : ℚ} {args : SurfaceArgs} {oo : ℚ × ℚ}
    {io : Option (ℚ × ℚ)} {bs : List BoundaryFace} {j : Job} {cs : List Motion}
    (hc : surface3dMesh m k s z args oo io bs j = .ok cs) :
    cs = [] ∨ ∃ tris, shapeToTriangles s = .ok tris ∧ surface3d (m.engine z tris) k args oo io bs j = .ok cs := by
  obtain ⟨faces, h1, hc⟩ := bind_ok.mp hc
  obtain ⟨css, h2, hc⟩ := bind_ok.mp hc
  cases hc
  have one : ∀ {f : List Edge × List (List Edge)} {b : List Motion},
      (wirePolygon f.1 true >>= fun polygon => surfaceBoundaryMesh m s z args j polygon) = .ok b →
      ∃ tris, shapeToTriangles s = .ok tris ∧
        (wirePolygon f.1 true >>= fun polygon => surfaceBoundary (m.engine z tris) args j polygon) = .ok b := by
    intro f b h
    obtain ⟨poly, hp, h⟩ := bind_ok.mp h
    obtain ⟨tris, h3, h4⟩ := surfaceBoundaryMesh_ok h
    exact ⟨tris, h3, bind_ok.mpr ⟨poly, hp, h4⟩⟩
  by_cases hf : faces.flatten = []
  · left
    rw [hf] at h2
    cases h2
    rfl
  · right
    obtain ⟨f, fs, hf⟩ := List.exists_cons_of_ne_nil hf
    obtain ⟨b, hb, e⟩ := mapE_mem' h2 (a := f) (by rw [hf]; simp)
    obtain ⟨tris, h3, -⟩ := one e
    refine ⟨tris, h3, bind_ok.mpr ⟨faces, h1, bind_ok.mpr ⟨css, mapE_ok.mpr ?_, rfl⟩⟩⟩
    refine (mapE_ok.mp h2).imp ?_
    intro f b e
    obtain ⟨tris', h3', h4⟩ := one e
    rw [h3] at h3'
    cases h3'
    exact h4

theorem sweepsClear_of {c : Cutter} {points : Vec → Prop} {h : Pt → ℚ} {g : ℚ} {a b : Vec}
    (hp : ∀ p, ClearAt c points p (h p)) (hab : ClearWay h g a b) : SweepsClear c points g a b :=
  fun t t0 t1 => clearAt_up (hab t t0 t1) (hp _)

/-- C116 on the way.  Where the heights found by the drop cutter change by at most `K` per unit, the tool is clear of the part on the
whole way of every move, up to half of `K` times the interpolation step: raised by that much, it has no point of the part in it.  All
other moves rise straight to the rapid height or travel rapidly at it. -/
theorem C116_between_partial {m : SurfaceLibs} {cutter : Cutter} {k : FaceKernel} {s : CadShape} {z : ℚ} {args : SurfaceArgs}
    {oo : ℚ × ℚ} {io : Option (ℚ × ℚ)} {bs : List BoundaryFace} {j : Job} {cs : List Motion} {K r : ℚ}
    (hm : DropsClear cutter m.drop) (hu : ∀ f ∈ s.faces, Unplaced f) (hK : SteepUpTo K m.drop s z) (hK0 : 0 ≤ K)
    (hn : Measures r m.norm) (hr : 0 ≤ r) (hi : 0 < args.interpolationStep) (htop : args.topHeight ≤ 0) (hbot : z ≤ args.topHeight)
    (hsafe : 0 ≤ j.opSafeHeight) (hrh : 0 ≤ j.rapidHeight) (hc : surface3dMesh m k s z args oo io bs j = .ok cs) :
    Tracks {} cs ∧ ∀ c ∈ cs, Rises j.rapidHeight c ∨ TravelsAt j.rapidHeight c ∨
      ((c.kind.mot = .rapid ∨ c.kind.mot = .linear) ∧ ∃ a b : Vec, c.start = .fromVec a ∧ c.fin = .fromVec b ∧
        SweepsClear cutter (OnShape s) (K * (r * args.interpolationStep) / 2) a b) := by
  rcases surface3dMesh_engine hc with rfl | ⟨tris, h3, h4⟩
  · exact ⟨trivial, by simp⟩
  · obtain ⟨h, hd, hclear⟩ := hm tris z
    obtain ⟨h5, h6⟩ := C100_between (eng := m.engine z tris) hd (hK tris h h3 hd) hK0 hn hr hi htop hbot hsafe hrh h4
    refine ⟨h5, fun c hcm => ?_⟩
    rcases h6 c hcm with h | h | ⟨hk, a, b, ha, hb, hab⟩
    · exact .inl h
    · exact .inr (.inl h)
    · exact .inr (.inr ⟨hk, a, b, ha, hb,
        sweepsClear_of (fun p v hv => (hclear p).2 v ((C116_triangles_partial hu h3 v).mpr hv)) hab⟩)

/-- C116 on the machine.  In the program of any job with a 3D surfacing in it, the machine moves the tool past the part on the whole
way of every move: raised by half of `K` times the interpolation step and by `(1 + 2K) / 2000` for the rounding of coordinates, it has
no point of the part in it. -/
theorem C116_machine_partial {libs : SurfaceLibs} {cutter : Cutter} {k : FaceKernel} {s : CadShape} {z : ℚ} {args : SurfaceArgs}
    {oo : ℚ × ℚ} {io : Option (ℚ × ℚ)} {bs : List BoundaryFace} {K r : ℚ}
    (hm : DropsClear cutter libs.drop) (hu : ∀ f ∈ s.faces, Unplaced f) (hK : SteepUpTo K libs.drop s z) (hK0 : 0 ≤ K)
    (hl : Measures r libs.norm) (hr : 0 ≤ r) (hi : 0 < args.interpolationStep) (htop : args.topHeight ≤ 0)
    (hbot : z ≤ args.topHeight)
    {j0 j1 j2 jf : Job} {before after : List Request} (m : Machine) (h0 : InitOK j0) (hsafe : 0 ≤ j0.opSafeHeight)
    (hrh : 0 ≤ j0.rapidHeight) (hn : ∀ v, j0.toolNumber = some v → NumOK v)
    (hok : ChainOK j0 (before ++ surface3dMeshRequest libs k s z args oo io bs :: after))
    (h1 : j0.chain before = .ok j1) (h2 : (j1.call (surface3dMeshRequest libs k s z args oo io bs)).2 = .ok j2)
    (h3 : j2.chain after = .ok jf) (hend : m.ended = false) (htool : ∀ n, j0.toolNumber = some n → m.tool = some n.value) :
    ∃ t m' pre part post cs, jf.toGcode = .ok t ∧ runText m t = some (m', pre ++ part ++ post) ∧
      surface3dMesh libs k s z args oo io bs (j1.updateTool none).2 = .ok cs ∧ (part.filter isMove).length = cs.length ∧
      ∀ e ∈ part, isMove e = true →
        MovesClear cutter (OnShape s) (K * (r * args.interpolationStep) / 2 + (1 + 2 * K) / 2000) (rnd 3 j0.rapidHeight) e := by
  obtain ⟨t, m', pre, part, post, cs, ht, hrun, hgen, hperf, hfol, -⟩ := C94_followed m h0 hn hok h1 h2 h3 hend htool
  have hbase : SameBase j0 (j1.updateTool none).2 := updateTool_base (chain_base (show SameBase j0 j0 from rfl) h1) _
  have hsafe' : j0.opSafeHeight = (j1.updateTool none).2.opSafeHeight := by rw [hbase]
  have hrapid' : j0.rapidHeight = (j1.updateTool none).2.rapidHeight := by rw [hbase]
  have hgen' : surface3dMesh libs k s z args oo io bs (j1.updateTool none).2 = .ok cs := hgen
  refine ⟨t, m', pre, part, post, cs, ht, hrun, hgen', hperf.length_eq, ?_⟩
  intro e he hme
  rcases surface3dMesh_engine hgen' with rfl | ⟨tris, h4, h5⟩
  · have hp : part.filter isMove = [] := List.eq_nil_of_length_eq_zero hperf.length_eq
    have := List.mem_filter.mpr ⟨he, hme⟩
    rw [hp] at this
    cases this
  · obtain ⟨h, hd, hclear⟩ := hm tris z
    have hK' := hK tris h h4 hd
    obtain ⟨htr, hcs⟩ := C100_between (eng := libs.engine z tris) hd hK' hK0 hl hr hi htop hbot (by rw [← hsafe']; exact hsafe)
      (by rw [← hrapid']; exact hrh) h5
    obtain ⟨c, hc, hfc⟩ := forall2_left (hfol htr) (List.mem_filter.mpr ⟨he, hme⟩)
    obtain ⟨kd, tgt, ctr, hact, hcl⟩ := clearOf_follows hK' hfc (hcs c hc)
    rw [← hrapid'] at hcl
    refine ⟨kd, tgt, ctr, hact, ?_⟩
    rcases hcl with hcl | hcl | ⟨hk, a, b, ha, hb, hab⟩
    · exact .inl hcl
    · exact .inr (.inl hcl)
    · exact .inr (.inr ⟨hk, a, b, ha, hb,
        sweepsClear_of (fun p v hv => (hclear p).2 v ((C116_triangles_partial hu h4 v).mpr hv)) hab⟩)

/-- The hypotheses of `C116_between_partial` and `C116_machine_partial`: the sloping face, surfaced in a program. -/
example : DropsClear (cylinder 3) topLibs.drop ∧ SteepUpTo 0 topLibs.drop (.face slopeFace) (-5) ∧ Measures 1 topLibs.norm ∧
    0 < hillArgs.interpolationStep ∧ hillArgs.topHeight ≤ 0 ∧ -5 ≤ hillArgs.topHeight ∧ InitOK demoInit ∧
    0 ≤ demoInit.opSafeHeight ∧ 0 ≤ demoInit.rapidHeight ∧
    ∃ j2, ChainOK demoInit ([] ++ surface3dMeshRequest topLibs idleKernel (.face slopeFace) (-5) hillArgs (-1, 0) (some (1, 0))
      [hillFace] :: []) ∧ demoInit.chain [] = .ok demoInit ∧
    (demoInit.call (surface3dMeshRequest topLibs idleKernel (.face slopeFace) (-5) hillArgs (-1, 0) (some (1, 0))
      [hillFace])).2 = .ok j2 := by
  refine ⟨topLibs_clear 3, ?_, hill_measures, by decide +kernel, by decide +kernel, by decide +kernel, demo_reach.1, by decide +kernel,
    by decide +kernel, ?_⟩
  · intro tris h _ hd p q ρ _ _
    have e : ∀ p, h p = topOf tris (-5) := by
      intro p
      have := hd [p]
      simpa [topLibs] using this.symm
    rw [e, e]
    simp
  · obtain ⟨cs, -, hr, hc⟩ := call_good (j := demoInit)
      (r := surface3dMeshRequest topLibs idleKernel (.face slopeFace) (-5) hillArgs (-1, 0) (some (1, 0)) [hillFace]) rfl rfl
      (by unfold SafeName; decide) (by decide +kernel)
    exact ⟨_, ⟨hr, fun _ _ => trivial⟩, rfl, hc⟩

end CQ
