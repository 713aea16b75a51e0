import Verif.Props.SolidExample
import Verif.Props.MeshPath
import Verif.Props.SurfaceTotal

/-! # C135 for profiles with tabs and for surfacing over a mesh, and C118 with the triangles of the shape -/

namespace CQ

/-! ### Profiles with tabs -/

/-- C135 for `profile` with tabs: inner and outer wires, each at its offset. -/
theorem C135_profile_tabs_partial {S : Solid} {σ ε lo : ℚ} {cad : Cad} (hA : Assembles cad) (hF : AssemblesFrom cad) (hb : BoxMoves cad)
    {shapes : List Shape} {outers inners : List (List Edge)} {outerOffset innerOffset : Option ℚ} {stepdown : Option ℚ} {tabs : Tabs}
    {tool : Option Tool} {j : Job} (hk : KeepsBelow cad j.top) (hst : ∀ s, stepdown = some s → 0 ≤ s) (hsafe : 0 ≤ j.opSafeHeight)
    (hv : ∀ w, NearestIsVertex cad w) (hx : extractWires shapes = .ok (outers, inners))
    (hw : ∀ w o, (w ∈ outers ∧ outerOffset = some o) ∨ (w ∈ inners ∧ innerOffset = some o) → TabsUsable cad j o w tabs) {τ : ℚ}
    (hrel : ∀ v w, cad.relocate v w = w) (hτ : Tolerance cad j.precision τ)
    (hlo : ∀ cs, (profileRequest cad shapes outerOffset innerOffset stepdown (some tabs) tool).gen j = .ok cs → MovesAbove lo cs)
    (hS : ∀ R, j.toolRadius = some R → (∀ o, outerOffset = some o ∨ innerOffset = some o → R + τ + 1 / 1000000 ≤ |o * R| + σ) ∧
      ∀ w o, (w ∈ outers ∧ outerOffset = some o) ∨ (w ∈ inners ∧ innerOffset = some o) →
        OffsetsSound cad (w.map (Edge.toLocal j.top)) (o * R) ∧ OffsetsDivisible cad (w.map (Edge.toLocal j.top)) (o * R) ∧
        OffsetsTabbed cad tabs (w.map (Edge.toLocal j.top)) (o * R) ∧
        OffsetsAway cad (fun q => ∃ ζ, S q ζ ∧ lo + ε < ζ) (w.map (Edge.toLocal j.top)) (o * R)) :
    CallSpares S σ ε j (profileRequest cad shapes outerOffset innerOffset stepdown (some tabs) tool) := by
  intro cs hcs
  have hcss : ∃ css : List (List Motion), cs = css.flatten ∧ ∀ b ∈ css, Connected {} b := by
    obtain ⟨⟨os, is⟩, h0, hcs⟩ := bind_ok.mp hcs
    rw [hx] at h0
    cases h0
    obtain ⟨a, g1, hcs⟩ := bind_ok.mp hcs
    obtain ⟨b, g2, hcs⟩ := bind_ok.mp hcs
    cases hcs
    have ha : ∃ css : List (List Motion), a = css.flatten ∧ ∀ b ∈ css, Connected {} b := by
      cases hi : innerOffset with
      | none => rw [hi] at g1; cases g1; exact ⟨[], rfl, by simp⟩
      | some o =>
        rw [hi] at g1
        exact profiles_tabs_connected hA hb hk hst hsafe hv g1 (fun w hwm => hw w o (.inr ⟨hwm, hi⟩))
    have hb' : ∃ css : List (List Motion), b = css.flatten ∧ ∀ b ∈ css, Connected {} b := by
      cases hi : outerOffset with
      | none => rw [hi] at g2; cases g2; exact ⟨[], rfl, by simp⟩
      | some o =>
        rw [hi] at g2
        exact profiles_tabs_connected hA hb hk hst hsafe hv g2 (fun w hwm => hw w o (.inl ⟨hwm, hi⟩))
    obtain ⟨as, rfl, ha⟩ := ha
    obtain ⟨bs, rfl, hb'⟩ := hb'
    refine ⟨as ++ bs, (List.flatten_append).symm, fun x hx => ?_⟩
    rcases List.mem_append.mp hx with hx | hx
    · exact ha x hx
    · exact hb' x hx
  obtain ⟨css, rfl, hcon⟩ := hcss
  refine ⟨tracks_parts hcon, fun R hR ρ hρ hle => ?_⟩
  obtain ⟨h1, h2⟩ := hS R hR
  exact spares_flatten hcon (hlo _ hcs)
    (C115_profile_tabs_partial hrel hF hv hτ hR hx h2 hρ (fun o ho => by linarith [h1 o ho]) hcs)

/-- The hypotheses of `C135_profile_tabs_partial`: the square in the hole, given as a shape, with tabs. -/
example : CallSpares holedPart (1 / 500) 0 (twoJob.updateTool none).2
    (profileRequest strictCad [.wire innerSquare] (some 1) none (some (3 / 5)) (some (.edge ⟨3, 1, 1 / 2, none⟩)) none) := by
  refine C135_profile_tabs_partial (lo := -1) (τ := 3 / 2000) (cad := strictCad) (outers := [innerSquare]) (inners := [])
    strictCad_assembles strictCad_from flatCad_boxMoves flatCad_keepsBelow (by rintro s ⟨⟩; norm_num) (by decide +kernel)
    (fun _ _ _ h => (by cases h)) rfl ?_ (fun _ _ => rfl) strictCad_tolerance (movesAbove_of (by decide +kernel)) ?_
  · rintro w o (⟨hw, ⟨⟩⟩ | ⟨⟨⟩, -⟩)
    exact ⟨by decide +kernel, by norm_num, by norm_num, innerSquare_contours innerSquare_flat w hw⟩
  intro R hR
  rw [show (twoJob.updateTool none).2.toolRadius = some 1 from by decide +kernel] at hR
  cases hR
  refine ⟨?_, ?_⟩
  · rintro o (⟨⟨⟩⟩ | ⟨⟨⟩⟩)
    norm_num
  · rintro w o (⟨hw, ⟨⟩⟩ | ⟨⟨⟩, -⟩)
    cases List.mem_singleton.mp hw
    change OffsetsSound strictCad (innerSquare.map (Edge.toLocal twoJob.top)) (1 * 1) ∧
      OffsetsDivisible strictCad (innerSquare.map (Edge.toLocal twoJob.top)) (1 * 1) ∧
      OffsetsTabbed strictCad (.edge ⟨3, 1, 1 / 2, none⟩) (innerSquare.map (Edge.toLocal twoJob.top)) (1 * 1) ∧
      OffsetsAway strictCad _ (innerSquare.map (Edge.toLocal twoJob.top)) (1 * 1)
    rw [innerSquare_local, one_mul]
    exact ⟨innerSquare_sound 1, innerSquare_divisible 1, innerSquare_edge_tabs 1, holedPart_away⟩

/-! ### Surfacing over a mesh -/

/-- C135 for 3D surfacing with the triangles of the shape: a solid that is nowhere above the shape is spared, if the drop cutter drops a
cylinder of the size of the tool of the job.  Partial as C116: the faces have to be where their geometry is. -/
theorem C135_mesh_partial {S : Solid} {σ ε R : ℚ} {m : SurfaceLibs} {k : FaceKernel} {s : CadShape} {z : ℚ} {args : SurfaceArgs}
    {oo : ℚ × ℚ} {io : Option (ℚ × ℚ)} {bs : List BoundaryFace} {j : Job} {K r : ℚ} (hR : j.toolRadius = some R)
    (hm : DropsClear (cylinder R) m.drop) (hu : ∀ f ∈ s.faces, Unplaced f) (hK : SteepUpTo K m.drop s z) (hK0 : 0 ≤ K)
    (hn : Measures r m.norm) (hr : 0 ≤ r) (hi : 0 < args.interpolationStep) (htop : args.topHeight ≤ 0) (hbot : z ≤ args.topHeight)
    (hsafe : 0 ≤ j.opSafeHeight) (hrh : 0 ≤ j.rapidHeight) (hσ : 0 ≤ σ) (hε : K * (r * args.interpolationStep) / 2 ≤ ε)
    (hS : ∀ q ζ, S q ζ → ∃ v, OnShape s v ∧ v.x = q.x ∧ v.y = q.y ∧ ζ ≤ v.z) :
    CallSpares S σ ε j (surface3dMeshRequest m k s z args oo io bs) := by
  intro cs hcs
  have hcs : surface3dMesh m k s z args oo io bs j = .ok cs := hcs
  rcases surface3dMesh_engine hcs with rfl | ⟨tris, h3, h4⟩
  · exact ⟨trivial, by simp⟩
  · obtain ⟨h, hd, hclear⟩ := hm tris z
    refine C135_surface (eng := m.engine z tris) (k := k) (oo := oo) (io := io) (bs := bs) hd (hK tris h h3 hd) hK0 hn hr hi htop hbot
      hsafe hrh hσ hε ?_ cs h4
    intro R' hR' p q ζ hq hζ
    rw [hR] at hR'
    cases hR'
    obtain ⟨v, hv, hx, hy, hz⟩ := hS q ζ hq
    by_contra hc
    rw [not_le] at hc
    refine (hclear p).2 v ((C116_triangles_partial hu h3 v).mpr hv) ⟨?_, ?_⟩
    · simp only [sqDist] at hc
      rw [hx, hy]
      dsimp only
      nlinarith
    · dsimp only
      linarith

/-- The hypotheses of `C135_mesh_partial`: all that is not above the sloping face. -/
example : CallSpares (fun q ζ => ∃ v, OnShape (.face slopeFace) v ∧ v.x = q.x ∧ v.y = q.y ∧ ζ ≤ v.z) 0 0 areaJob
    (surface3dMeshRequest topLibs idleKernel (.face slopeFace) (-5) hillArgs (-1, 0) (some (1, 0)) [hillFace]) := by
  refine C135_mesh_partial (R := 1) (K := 0) (r := 1) (by decide +kernel) (topLibs_clear 1) ?_ ?_ le_rfl hill_measures (by norm_num)
    (by decide +kernel) (by decide +kernel) (by decide +kernel) (by decide +kernel) (by decide +kernel) le_rfl (by norm_num)
    (fun _ _ h => h)
  · intro f hf
    simp only [CadShape.faces, List.mem_singleton] at hf
    subst hf
    exact fun _ => rfl
  · intro tris h _ hd p q ρ _ _
    have e : ∀ p, h p = topOf tris (-5) := by
      intro p
      have := hd [p]
      simpa [topLibs] using this.symm
    rw [e, e]
    simp

/-! ### C118 with the triangles -/

/-- C118, with the triangles of the shape (as far as it holds, see the violations): if moreover the shape is a face or a compound whose faces
are all meshed, 3D surfacing succeeds. -/
theorem C118_mesh_partial {m : SurfaceLibs} {s : CadShape} {z : ℚ} {k : FaceKernel} {args : SurfaceArgs} {oo io : ℚ × ℚ}
    {bs : List BoundaryFace} (ha : ∀ tris ps, (m.drop tris z ps).length = ps.length) (hmesh : ∀ f ∈ s.faces, ProperMesh f)
    (hother : ∀ fs, s = .other fs → fs = []) (hk : KernelWorks k) (hf : ∀ b ∈ bs, b.flat = true)
    (hw : ∀ w, SurfacedOutline k (args.toolDiameter * oo.1 + oo.2) bs w → Flattenable w ∧
      ∀ poly, wirePolygon w true = .ok poly → CanSurface (m.engine z []) args poly ∧
        ∀ lines, ScansTo m.scan poly (args.toolDiameter * args.stepover) lines → OrdinaryScan poly lines) (j : Job) :
    (∃ cs, surface3dMesh m k s z args oo (some io) bs j = .ok cs) ∧
      ∃ j', (j.call (surface3dMeshRequest m k s z args oo (some io) bs)).2 = .ok j' := by
  obtain ⟨tris, h3⟩ := (C116_meshed s).mpr ⟨hmesh, hother⟩
  have key : ∀ j, ∃ cs, surface3dMesh m k s z args oo (some io) bs j = .ok cs := by
    intro j
    obtain ⟨⟨cs, h⟩, -⟩ := C118_made_partial (eng := m.engine z tris) (oo := oo) (io := io) (ha tris) hk hf hw j
    obtain ⟨faces, h1, h⟩ := bind_ok.mp h
    obtain ⟨css, h2, h⟩ := bind_ok.mp h
    refine ⟨css.flatten, bind_ok.mpr ⟨faces, h1, bind_ok.mpr ⟨css, mapE_ok.mpr ?_, rfl⟩⟩⟩
    refine (mapE_ok.mp h2).imp ?_
    intro f b e
    obtain ⟨poly, hp, e⟩ := bind_ok.mp e
    obtain ⟨paths, g1, e⟩ := bind_ok.mp e
    obtain ⟨seqs, g2, e⟩ := bind_ok.mp e
    rw [interpolateSequence_engine m z tris []] at g2
    exact bind_ok.mpr ⟨poly, hp, bind_ok.mpr ⟨paths, g1, bind_ok.mpr ⟨seqs, g2, bind_ok.mpr ⟨tris, h3, e⟩⟩⟩⟩
  refine ⟨key j, ?_⟩
  obtain ⟨cs, hc⟩ := key (j.updateTool none).2
  exact call_made rfl hc

/-- Libraries with the clipper for rectangles, and a tool that is dropped on the highest point of all triangles. -/
def boxLibs : SurfaceLibs where
  scan := boxScan
  norm v := |v.x| + |v.y|
  strict := true
  drop tris z ps := ps.map (fun _ => topOf tris z)

/-- A case of `C118_mesh_partial`: the sloping face in a rectangle. -/
example (j : Job) : ∃ j', (j.call (surface3dMeshRequest boxLibs idleKernel (.face slopeFace) (-3) {} (0, 0) (some (0, 0))
    [rectangle 0 0 10 8 0])).2 = .ok j' := by
  obtain ⟨-, hk, hf, hw⟩ := rectangle_can
  refine (C118_mesh_partial (fun tris ps => by simp [boxLibs]) ?_ (fun fs h => by cases h) hk hf ?_ j).2
  · intro f hf
    simp only [CadShape.faces, List.mem_singleton] at hf
    subst hf
    exact ⟨slopeMesh, rfl, by decide⟩
  · intro w h
    exact hw w (by simpa using h)

end CQ
