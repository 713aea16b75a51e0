import Verif.Props.SurfaceTotal

/-! # C119: 3D surfacing and the tool of the job -/

namespace CQ

/-- C119, for calls whose cutter has the diameter of the tool of the job: the boundaries are offset by the requested multiple of
that diameter (and constant), and scanlines are the requested fraction of it apart.  Missing: nothing makes the cutter that of
the job. -/
theorem C119_offsets_partial {F : Type} {c : SurfaceCad F} {k : FaceKernel} {args : SurfaceArgs} {oo : OffsetInput}
    {io : Option OffsetInput} {selection : List (Selected F)} {j : Job} {d : ℚ} (hd : j.toolDiameter = some d)
    (ht : args.toolDiameter = d) {cs : List Motion} (h : surface3dCall c k args oo io selection j = .ok cs) :
    ∃ (boundaries : List BoundaryFace) (offsets : List (List (List Edge × List (List Edge)))) (parts : List (List Motion)),
      List.Forall₂ (fun b fs => ∃ i, io = some i ∧ OffsetBoundaryTo k (oo.ofDiameter d) (i.ofDiameter d) b fs) boundaries offsets ∧
      List.Forall₂ (fun (f : List Edge × List (List Edge)) part => ∃ polygon lines eng, wirePolygon f.1 true = .ok polygon ∧
        ScansTo (SurfaceEngine.scan eng) polygon (d * args.stepover) lines ∧
        surfaceBoundary eng args j polygon = .ok part) offsets.flatten parts ∧ cs = parts.flatten := by
  obtain ⟨faces, projected, boundaries, offsets, parts, -, -, -, -, h1, h2, h3⟩ := C86_boundaries_partial h
  subst ht
  refine ⟨boundaries, offsets, parts, h1.imp (fun _ _ hb => hb.2), h2.imp (fun f part hp => ?_), h3⟩
  obtain ⟨polygon, h4, h5⟩ := hp
  have h6 := h5
  obtain ⟨paths, hz, -⟩ := bind_ok.mp h6
  obtain ⟨ts, h7, hz⟩ := bind_ok.mp hz
  obtain ⟨lines, h8, -⟩ := bind_ok.mp hz
  exact ⟨polygon, lines, _, h4, ⟨ts, h7, h8⟩, h5⟩

/-- C119 fails: whatever tool the job has, the moves are the same. -/
theorem C119_violated_ignored {F : Type} (c : SurfaceCad F) (k : FaceKernel) (args : SurfaceArgs) (oo : OffsetInput)
    (io : Option OffsetInput) (selection : List (Selected F)) (j : Job) (d : Option ℚ) (n : Option PyNum) :
    surface3dCall c k args oo io selection { j with toolDiameter := d, toolNumber := n } =
      surface3dCall c k args oo io selection j := by
  have hpiece : ∀ z pos s, pieceMoves { j with toolDiameter := d, toolNumber := n } z pos s = pieceMoves j z pos s := by
    intro z pos s
    cases s <;> rfl
  have hpieces : ∀ z ss pos, piecesMoves { j with toolDiameter := d, toolNumber := n } z pos ss = piecesMoves j z pos ss := by
    intro z ss
    induction ss with
    | nil => intro pos; rfl
    | cons s ss ih => intro pos; simp only [piecesMoves, hpiece, ih]
  have hpasses : ∀ ds ss rest i pos,
      passesMoves { j with toolDiameter := d, toolNumber := n } ds ss i pos rest = passesMoves j ds ss i pos rest := by
    intro ds ss rest
    induction rest with
    | nil => intro i pos; rfl
    | cons z rest ih => intro i pos; simp only [passesMoves, hpieces, ih]
  simp only [surface3dCall, surface3d, surfaceBoundary, hpasses]

/-- A kernel for axis-parallel rectangles. -/
def boxKernel : FaceKernel where
  offset2D w d := .ok [(rectangle (smallest (w.map (fun e => e.startPoint.x)) - d) (smallest (w.map (fun e => e.startPoint.y)) - d)
    (largest (w.map (fun e => e.startPoint.x)) + d) (largest (w.map (fun e => e.startPoint.y)) + d) 0).outer]
  makeFace _ _ := .ok ()
  inside _ _ := false

/-- Selected faces are boundaries as they are. -/
def boxCad : SurfaceCad BoundaryFace where
  make o hs := .ok ⟨true, o, hs⟩
  area w := .ok w.length
  toJob f := f
  visible f := .ok [f.outer]
  boundaries fs := .ok fs
  engine _ := boxSurface

/-- C119 fails: with a tool of diameter 10 in the job and the default settings (an outer offset of -1, one tool diameter inside),
surfacing a rectangle of 40 by 30 takes the centre of the tool to less than the radius of the tool from its edge. -/
theorem C119_violated : ∃ (j : Job) (cs : List Motion), j.toolDiameter = some 10 ∧
    surface3dCall boxCad boxKernel {} (.mult (-1)) (some (.mult 1)) [.face (rectangle 0 0 40 30 0)] j = .ok cs ∧
    ∃ c ∈ cs, ∃ q z, CutsTo q z c ∧ 0 < q.x ∧ q.x < 10 / 2 := by
  have h : (match surface3dCall boxCad boxKernel {} (.mult (-1)) (some (.mult 1)) [.face (rectangle 0 0 40 30 0)]
        { demoInit with toolDiameter := some 10 } with
      | .ok cs => decide (∃ c ∈ cs, c.kind.mot = .linear ∧ c.fin = (⟨127 / 40, c.fin.y.getD 0⟩ : Pt).at (-3))
      | .error _ => false) = true := by decide +kernel
  split at h
  · rename_i cs hr
    obtain ⟨c, hc, h1, h2⟩ := of_decide_eq_true h
    exact ⟨_, cs, rfl, hr, c, hc, _, _, ⟨h1, h2⟩, by norm_num, by norm_num⟩
  · cases h

/-- The hypotheses of `C119_offsets_partial`: a job with the diameter of the default cutter. -/
example : ∃ (j : Job) (cs : List Motion), j.toolDiameter = some (3175 / 1000) ∧ ({} : SurfaceArgs).toolDiameter = 3175 / 1000 ∧
    surface3dCall boxCad boxKernel {} (.mult (-1)) (some (.mult 1)) [.face (rectangle 0 0 40 30 0)] j = .ok cs := by
  obtain ⟨cs, h⟩ := surfacing_made (r := surface3dCall boxCad boxKernel {} (.mult (-1)) (some (.mult 1))
    [.face (rectangle 0 0 40 30 0)] { demoInit with toolDiameter := some (3175 / 1000) }) (by decide +kernel)
  exact ⟨_, cs, rfl, rfl, h⟩

end CQ
