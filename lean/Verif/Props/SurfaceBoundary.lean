import Verif.Spec.SurfaceBoundary
import Verif.Props.Surface
import Verif.Proofs.WireRouter

/-! # C86, C87: the boundaries of 3D surfacing -/

namespace CQ

/-! ### C86 -/

theorem assembleFaces_ok {k : FaceKernel} {inner outers : List (List Edge)} {fs : List (List Edge × List (List Edge))}
    (h : assembleFaces k inner outers = .ok fs) : fs.map Prod.fst = outers ∧
      ∀ before o hs after, fs = before ++ (o, hs) :: after →
        hs = inner.filter (fun h => k.inside h o && before.all (fun f => !k.inside h f.1)) := by
  induction outers generalizing inner fs with
  | nil =>
    cases h
    exact ⟨rfl, by intro b o hs a h; simp at h⟩
  | cons o os ih =>
    unfold assembleFaces at h
    obtain ⟨_, -, h⟩ := bind_ok.mp h
    obtain ⟨rest, h1, h⟩ := bind_ok.mp h
    cases h
    obtain ⟨g1, g2⟩ := ih h1
    refine ⟨by rw [List.map_cons, g1], ?_⟩
    intro before o' hs after e
    cases before with
    | nil =>
      simp only [List.nil_append, List.cons.injEq, Prod.mk.injEq] at e
      obtain ⟨⟨rfl, rfl⟩, -⟩ := e
      simp
    | cons x before =>
      simp only [List.cons_append, List.cons.injEq] at e
      obtain ⟨rfl, e⟩ := e
      rw [g2 before o' hs after e, List.filter_filter]
      apply List.filter_congr
      intro w _
      simp only [List.all_cons]
      cases k.inside w o <;> cases k.inside w o' <;> simp

theorem offsetBoundary_to {k : FaceKernel} {d : ℚ} {oo io : ℚ × ℚ} {b : BoundaryFace} {fs : List (List Edge × List (List Edge))}
    (h : offsetBoundary k d oo (some io) b = .ok fs) :
    b.flat = true ∧ OffsetBoundaryTo k (d * oo.1 + oo.2) (d * io.1 + io.2) b fs := by
  unfold offsetBoundary at h
  split at h
  · cases h
  rename_i hf
  obtain ⟨outers, h1, h⟩ := bind_ok.mp h
  obtain ⟨inners, h2, h⟩ := bind_ok.mp h
  obtain ⟨_, -, h⟩ := bind_ok.mp h
  obtain ⟨_, -, h⟩ := bind_ok.mp h
  obtain ⟨g1, g2⟩ := assembleFaces_ok h
  exact ⟨by simpa using hf, outers, inners, h1, mapE_ok.mp h2, g1, g2⟩

/-- The wires in order of their area. -/
theorem wiresByArea_ok {area : List Edge → Except Err ℚ} {ws sorted : List (List Edge)} (h : wiresByArea area ws = .ok sorted) :
    sorted.Perm ws ∧ sorted.Pairwise (fun o h => ∃ a b, area o = .ok a ∧ area h = .ok b ∧ b ≤ a) := by
  obtain ⟨as, h1, h⟩ := bind_ok.mp h
  cases h
  have h2 := mapE_ok.mp h1
  have h3 : ∀ x ∈ as, area x.2 = .ok x.1 := by
    intro x hx
    obtain ⟨w, -, hw⟩ := forall₂_mem_right h2 hx
    cases ha : area w with
    | error e => rw [ha] at hw; cases hw
    | ok a => rw [ha] at hw; cases hw; exact ha
  have h4 : as.map Prod.snd = ws := by
    clear * - h2
    induction h2 with
    | nil => rfl
    | @cons w x ws xs hw _ ih =>
      cases ha : area w with
      | error e => rw [ha] at hw; cases hw
      | ok a => rw [ha] at hw; cases hw; rw [List.map_cons, ih]
  have hperm := List.perm_insertionSort (fun x y : ℚ × List Edge => y.1 ≤ x.1) as
  refine ⟨h4 ▸ hperm.map _, ?_⟩
  rw [List.pairwise_map]
  have hs : (as.insertionSort (fun x y => y.1 ≤ x.1)).Pairwise (fun x y => y.1 ≤ x.1) := by
    have : Std.Total (fun x y : ℚ × List Edge => y.1 ≤ x.1) := ⟨fun x y => le_total _ _⟩
    have : IsTrans (ℚ × List Edge) (fun x y => y.1 ≤ x.1) := ⟨fun x y z h1 h2 => le_trans h2 h1⟩
    exact List.pairwise_insertionSort _ _
  refine List.Pairwise.imp_of_mem ?_ hs
  intro x y hx hy hle
  exact ⟨_, _, h3 x (hperm.mem_iff.mp hx), h3 y (hperm.mem_iff.mp hy), hle⟩

/-- C86, projection.  The projection of a face is made of all the wires of its visible edges: the largest is the outline, the
others are holes. -/
theorem C86_projection {F : Type} {c : SurfaceCad F} {f g : F} (h : projectFace c f = .ok g) :
    ∃ ws, c.visible f = .ok ws ∧ MadeOf c ws g := by
  obtain ⟨ws, h1, h⟩ := bind_ok.mp h
  obtain ⟨sorted, h2, h⟩ := bind_ok.mp h
  obtain ⟨p1, p2⟩ := wiresByArea_ok h2
  cases sorted with
  | nil => cases h
  | cons o hs => exact ⟨ws, h1, o, hs, h, p1, fun x hx => (List.pairwise_cons.mp p2).1 x hx⟩

/-- C86, selection.  Nothing selected, or (after faces and wires that faces can be made of) something that is neither a face
nor a wire, is refused. -/
theorem C86_refused {F : Type} (c : SurfaceCad F) (k : FaceKernel) (args : SurfaceArgs) (oo : OffsetInput) (io : Option OffsetInput)
    (j : Job) : surface3dCall c k args oo io [] j = .error .operationError ∧
    ∀ before after, (∀ w, Selected.wire w ∈ before → ∃ f, c.make w [] = .ok f) →
      surface3dCall c k args oo io (before ++ .other :: after) j = .error .operationError := by
  refine ⟨rfl, ?_⟩
  intro before after h
  have key : selectionFaces c.make (before ++ .other :: after) = .error .operationError := by
    induction before with
    | nil => rfl
    | cons o os ih =>
      have := ih (fun w hw => h w (by simp [hw]))
      cases o with
      | face f => simp only [List.cons_append, selectionFaces, this]; rfl
      | wire w =>
        obtain ⟨f, hf⟩ := h w (by simp)
        simp only [List.cons_append, selectionFaces, this, hf]; rfl
      | other => rfl
  simp only [surface3dCall, wpToFaces, key]
  rfl

/-- The faces of a selection. -/
def SelectionOf {F : Type} (c : SurfaceCad F) (o : Selected F) (f : F) : Prop :=
  o = .face f ∨ ∃ w, o = .wire w ∧ c.make w [] = .ok f

theorem wpToFaces_ok {F : Type} {c : SurfaceCad F} {os : List (Selected F)} {fs : List F} (h : wpToFaces c.make os = .ok fs) :
    List.Forall₂ (SelectionOf c) os fs := by
  obtain ⟨gs, h1, h⟩ := bind_ok.mp h
  split at h
  · cases h
  · cases h
    clear * - h1
    induction os generalizing fs with
    | nil => cases h1; exact .nil
    | cons o os ih =>
      cases o with
      | face f =>
        obtain ⟨gs, h2, h1⟩ := bind_ok.mp h1
        cases h1
        exact .cons (.inl rfl) (ih h2)
      | wire w =>
        obtain ⟨f, h3, h1⟩ := bind_ok.mp h1
        obtain ⟨gs, h2, h1⟩ := bind_ok.mp h1
        cases h1
        exact .cons (.inr ⟨w, rfl, h3⟩) (ih h2)
      | other => cases h1

theorem offsetPair_diameter (o : OffsetInput) (d : ℚ) : d * (offsetPair o).1 + (offsetPair o).2 = o.ofDiameter d := by
  cases o <;> simp [offsetPair, OffsetInput.ofDiameter, mul_comm]

/-- C86 (as far as it holds, see the violations below).  A successful surfacing call takes every selected face or wire, in job
coordinates, projects it, combines the projections to boundaries, offsets their outlines by the outer offset (a multiple of
the tool diameter and a constant) and their holes by the inner offset, and surfaces (C56-C59, C79) the inside of the polygon
(C87) of each offset outline, in order, and nothing else.  Missing: the holes are not left out. -/
theorem C86_boundaries_partial {F : Type} {c : SurfaceCad F} {k : FaceKernel} {args : SurfaceArgs} {oo : OffsetInput}
    {io : Option OffsetInput} {selection : List (Selected F)} {j : Job} {cs : List Motion}
    (h : surface3dCall c k args oo io selection j = .ok cs) :
    ∃ faces projected boundaries offsets parts, List.Forall₂ (SelectionOf c) selection faces ∧ faces ≠ [] ∧
      List.Forall₂ (fun f g => ∃ ws, c.visible (c.toJob f) = .ok ws ∧ MadeOf c ws g) faces projected ∧
      c.boundaries projected = .ok boundaries ∧
      List.Forall₂ (fun b fs => b.flat = true ∧ ∃ i, io = some i ∧
        OffsetBoundaryTo k (oo.ofDiameter args.toolDiameter) (i.ofDiameter args.toolDiameter) b fs) boundaries offsets ∧
      List.Forall₂ (fun (f : List Edge × List (List Edge)) part => ∃ polygon, wirePolygon f.1 true = .ok polygon ∧
        surfaceBoundary (c.engine (faces.map c.toJob)) args j polygon = .ok part) offsets.flatten parts ∧
      cs = parts.flatten := by
  obtain ⟨faces, h1, h⟩ := bind_ok.mp h
  obtain ⟨projected, h2, h⟩ := bind_ok.mp h
  obtain ⟨boundaries, h3, h⟩ := bind_ok.mp h
  obtain ⟨offsets, h4, h⟩ := bind_ok.mp h
  obtain ⟨parts, h5, h⟩ := bind_ok.mp h
  cases h
  refine ⟨faces, projected, boundaries, offsets, parts, wpToFaces_ok h1, ?_, ?_, h3, ?_, ?_, rfl⟩
  · rintro rfl
    obtain ⟨gs, -, h1⟩ := bind_ok.mp h1
    split at h1
    · cases h1
    · cases h1; exact absurd rfl ‹_›
  · have := mapE_ok.mp h2
    rw [List.forall₂_map_left_iff] at this
    exact this.imp (fun _ _ h => C86_projection h)
  · refine (mapE_ok.mp h4).imp (fun b fs hb => ?_)
    cases io with
    | none =>
      simp only [Option.map_none] at hb
      unfold offsetBoundary at hb
      split at hb <;> cases hb
    | some i =>
      obtain ⟨g1, g2⟩ := offsetBoundary_to hb
      rw [offsetPair_diameter, offsetPair_diameter] at g2
      exact ⟨g1, i, rfl, g2⟩
  · refine (mapE_ok.mp h5).imp (fun f part hp => ?_)
    obtain ⟨polygon, e1, e2⟩ := bind_ok.mp hp
    exact ⟨polygon, e1, e2⟩

/-- The boundary without its holes. -/
def BoundaryFace.filled (b : BoundaryFace) : BoundaryFace := { b with inners := [] }

theorem offsetBoundary_filled {k : FaceKernel} {d : ℚ} {oo : ℚ × ℚ} {io : Option (ℚ × ℚ)} {b : BoundaryFace}
    {fs : List (List Edge × List (List Edge))} (h : offsetBoundary k d oo io b = .ok fs) :
    offsetBoundary k d oo io b.filled = .ok (fs.map (fun f => (f.1, []))) := by
  unfold offsetBoundary at h ⊢
  cases hf : b.flat with
  | false => rw [hf] at h; cases h
  | true =>
    rw [hf] at h
    simp only [BoundaryFace.filled, hf, Bool.not_true, Bool.false_eq_true, if_false] at h ⊢
    cases io with
    | none => cases h
    | some io =>
      simp only at h ⊢
      obtain ⟨outers, h1, h⟩ := bind_ok.mp h
      obtain ⟨inners, -, h⟩ := bind_ok.mp h
      obtain ⟨us, h2, h⟩ := bind_ok.mp h
      obtain ⟨_, -, h⟩ := bind_ok.mp h
      have key : ∀ {outers : List (List Edge)} {us : List Unit} {inner : List (List Edge)} {fs : List (List Edge × List (List Edge))},
          mapE (fun w => k.makeFace w []) outers = .ok us → assembleFaces k inner outers = .ok fs →
          assembleFaces k [] outers = .ok (fs.map (fun f => (f.1, []))) := by
        intro outers
        induction outers with
        | nil => intro us inner fs _ h; cases h; rfl
        | cons o os ih =>
          intro us inner fs hu h
          obtain ⟨u, hu1, hu⟩ := bind_ok.mp hu
          obtain ⟨us', hu2, hu⟩ := bind_ok.mp hu
          unfold assembleFaces at h
          obtain ⟨_, -, h⟩ := bind_ok.mp h
          obtain ⟨rest, h1, h⟩ := bind_ok.mp h
          cases h
          simp only [assembleFaces, List.filter_nil, hu1, ok_bind, ih hu2 h1, List.map_cons]
      rw [h1, ok_bind]
      simp only [mapE, ok_bind, List.flatten_nil, h2]
      exact key h2 h

/-- C86 does not hold: holes are not left out.  Whatever the holes of the boundaries and the inner offset are, the moves are
those for the boundaries without holes. -/
theorem C86_violated_holes {eng : SurfaceEngine} {k : FaceKernel} {args : SurfaceArgs} {oo : ℚ × ℚ} {io : Option (ℚ × ℚ)}
    {bs : List BoundaryFace} {j : Job} {cs : List Motion} (h : surface3d eng k args oo io bs j = .ok cs) :
    surface3d eng k args oo io (bs.map BoundaryFace.filled) j = .ok cs := by
  obtain ⟨faces, h1, h⟩ := bind_ok.mp h
  have h2 : mapE (offsetBoundary k args.toolDiameter oo io) (bs.map BoundaryFace.filled) =
      .ok (faces.map (List.map (fun f => (f.1, ([] : List (List Edge)))))) := by
    rw [mapE_ok, List.forall₂_map_left_iff, List.forall₂_map_right_iff]
    exact (mapE_ok.mp h1).imp (fun _ _ h => offsetBoundary_filled h)
  unfold surface3d
  rw [h2, ok_bind, ← List.map_flatten]
  obtain ⟨parts, h3, h⟩ := bind_ok.mp h
  have h4 := mapE_ok.mp h3
  rw [show mapE (fun f : List Edge × List (List Edge) => do
      let polygon ← wirePolygon f.1 true
      surfaceBoundary eng args j polygon) (faces.flatten.map (fun f => (f.1, ([] : List (List Edge))))) = .ok parts from by
    rw [mapE_ok, List.forall₂_map_left_iff]; exact h4]
  exact h

/-- The boundary of the examples with a square hole around `(5, 2)`. -/
def holedFace : BoundaryFace :=
  { hillFace with
    inners := [[sideEdge ⟨9/2, 3/2, 0⟩ ⟨11/2, 3/2, 0⟩, sideEdge ⟨11/2, 3/2, 0⟩ ⟨11/2, 5/2, 0⟩, sideEdge ⟨11/2, 5/2, 0⟩ ⟨9/2, 5/2, 0⟩,
      sideEdge ⟨9/2, 5/2, 0⟩ ⟨9/2, 3/2, 0⟩]] }

/-- So the tool goes into the hole: it cuts to `(5, 2)`, the middle of the hole. -/
theorem C86_violated : ∃ cs, surface3d hillEngine idleKernel hillArgs (0, 0) (some (0, 0)) [holedFace] demoInit = .ok cs ∧
    ∃ c ∈ cs, ∃ z, CutsTo ⟨5, 2⟩ z c := by
  have key : (match surface3d hillEngine idleKernel hillArgs (0, 0) (some (0, 0)) [holedFace] demoInit with
      | .ok cs => decide (∃ c ∈ cs, c.kind.mot = .linear ∧ c.fin = (⟨5, 2⟩ : Pt).at (c.fin.z.getD 0))
      | .error _ => false) = true := by decide +kernel
  split at key
  · rename_i cs h
    obtain ⟨c, hc, h1, h2⟩ := of_decide_eq_true key
    exact ⟨cs, h, c, hc, _, h1, h2⟩
  · cases key

/-- An inner offset of `None`, which the operation's signature allows, makes every call with a boundary fail. -/
theorem C86_violated_none (eng : SurfaceEngine) (k : FaceKernel) (args : SurfaceArgs) (oo : ℚ × ℚ) (b : BoundaryFace)
    (bs : List BoundaryFace) (hb : b.flat = true) (j : Job) :
    surface3d eng k args oo none (b :: bs) j = .error .typeError := by
  simp only [surface3d, mapE, offsetBoundary, hb]
  rfl

/-- A kernel for selections: faces are boundary faces, projected as they are. -/
def hillCad : SurfaceCad BoundaryFace where
  make o hs := .ok ⟨true, o, hs⟩
  area w := .ok w.length
  toJob f := f
  visible f := .ok (f.inners ++ [f.outer])
  boundaries fs := .ok fs
  engine _ := hillEngine

/-- A selected face with a hole and a wire: the call succeeds. -/
example : (match surface3dCall hillCad idleKernel hillArgs (.mult (-1)) (some (.mult 1)) [.face hillFace, .wire hillFace.outer]
      demoInit with
    | .ok cs => decide (cs.length = 170) | .error _ => false) = true := by decide +kernel

/-! ### C87 -/

theorem positionSpace_tail {e : Edge} (hl : 1 / 10 < e.length) :
    ∃ n : ℕ, 1 ≤ n ∧ (positionSpace e).tail = (List.range n).map (fun k : ℕ => ((k + 1 : ℚ) / n)) ∧ e.length / n ≤ 1 / 5 := by
  have h2 : (2 : ℤ) ≤ ⌈e.length / (1 / 10)⌉ := by
    have : (1 : ℤ) < ⌈e.length / (1 / 10)⌉ := by
      rw [Int.lt_ceil]
      rw [lt_div_iff₀ (by norm_num)]
      push_cast; linarith
    omega
  obtain ⟨m, hm⟩ : ∃ m : ℕ, ⌈e.length / (1 / 10)⌉.toNat = m + 2 := ⟨⌈e.length / (1 / 10)⌉.toNat - 2, by omega⟩
  have hceil : e.length / (1 / 10) ≤ (m + 2 : ℕ) := by
    have h3 : ((⌈e.length / (1 / 10)⌉.toNat : ℤ) : ℚ) = (⌈e.length / (1 / 10)⌉ : ℚ) := by
      rw [Int.toNat_of_nonneg (by omega)]
    rw [hm] at h3
    have := Int.le_ceil (e.length / (1 / 10))
    rw [← h3] at this
    exact_mod_cast this
  refine ⟨m + 1, by omega, ?_, ?_⟩
  · unfold positionSpace
    simp only [hm, if_neg (show ¬ m + 2 = 1 by omega), linspace]
    rw [List.range_succ_eq_map, List.map_cons, List.tail_cons, List.map_map]
    apply List.map_congr_left
    intro k _
    simp only [Function.comp]
    push_cast
    have : (m : ℚ) + 2 - 1 = m + 1 := by ring
    rw [this]
    field_simp
    ring
  · rw [div_le_iff₀ (by norm_num)] at hceil
    push_cast at hceil ⊢
    rw [div_le_iff₀ (by positivity)]
    have : (0 : ℚ) ≤ m := by positivity
    linarith

/-- C87 (as far as it holds, see the violations below).  The polygon of a closed wire whose edges are straight, or arcs, circles
or offset curves that are not reversed and longer than 1/10, follows its edges in travel direction: for each edge in order its
end, and for curves also further points of it at most 1/5 apart.  The polygon of a wire that is not closed is closed. -/
theorem C87_flattened_partial {edges : List Edge} (hok : ∀ e ∈ edges, EdgeOK e)
    (h : ∀ e ∈ edges, e.geom = .line ∨ e.curved ∧ e.reversed = false ∧ 1 / 10 < e.length) :
    ∃ parts, List.Forall₂ FlattenedEdge edges parts ∧
      wirePolygon edges true = .ok (parts.flatten.map (fun v => (⟨v.x, v.y⟩ : Pt))) ∧
      ∀ p ps, parts.flatten.map (fun v => (⟨v.x, v.y⟩ : Pt)) = p :: ps → wirePolygon edges false = .ok (p :: ps ++ [p]) := by
  have key : ∃ parts, List.Forall₂ FlattenedEdge edges parts ∧ flattenEdges edges = .ok parts.flatten := by
    induction edges with
    | nil => exact ⟨[], .nil, rfl⟩
    | cons e es ih =>
      obtain ⟨parts, h1, h2⟩ := ih (fun x hx => hok x (by simp [hx])) (fun x hx => h x (by simp [hx]))
      rcases h e (by simp) with hl | ⟨hc, hr, hl⟩
      · refine ⟨[e.travel 1] :: parts, .cons ⟨1, le_refl _, by simp, fun _ => rfl, fun hn => absurd hl hn⟩ h1, ?_⟩
        simp only [flattenEdges, hl, if_true, ok_bind, h2, edgeEndPoint_eq (hok e (by simp)), List.flatten_cons]
      · obtain ⟨n, n1, n2, n3⟩ := positionSpace_tail hl
        have hnl : e.geom ≠ .line := by
          rcases hc with hc | hc | hc <;> rw [hc] <;> decide
        refine ⟨(List.range n).map (fun k : ℕ => e.travel ((k + 1 : ℚ) / n)) :: parts,
          .cons ⟨n, n1, rfl, fun hl => absurd hl hnl, fun _ => n3⟩ h1, ?_⟩
        have ht : ∀ d, e.travel d = e.posLen d := by
          intro d; unfold Edge.travel; rw [hr]; simp
        simp only [flattenEdges, if_neg hnl, if_pos (show e.geom = .arc ∨ e.geom = .circle ∨ e.geom = .offset from hc), ok_bind, h2,
          List.flatten_cons, n2, List.map_map]
        simp only [ht]
        rfl
  obtain ⟨parts, h1, h2⟩ := key
  refine ⟨parts, h1, by simp only [wirePolygon, h2, ok_bind, if_true], ?_⟩
  intro p ps hp
  simp only [wirePolygon, h2, ok_bind, hp]
  rfl

/-- A wire with a curve: the hypotheses of C87. -/
def curveEdge (a b : Vec) : Edge := { sideEdge a b with geom := .arc }

example : ∀ e ∈ [sideEdge ⟨0, 0, 0⟩ ⟨3, 0, 0⟩, curveEdge ⟨3, 0, 0⟩ ⟨3, 2, 0⟩], EdgeOK e ∧
    (e.geom = .line ∨ e.curved ∧ e.reversed = false ∧ 1 / 10 < e.length) := by
  intro e he
  simp only [List.mem_cons, List.not_mem_nil, or_false] at he
  rcases he with rfl | rfl
  · exact ⟨⟨by simp [sideEdge], by simp [sideEdge], by simp [sideEdge], by simp [sideEdge]⟩, .inl rfl⟩
  · refine ⟨⟨by simp [sideEdge, curveEdge], by simp [sideEdge, curveEdge], by simp [sideEdge, curveEdge],
      by simp [sideEdge, curveEdge]⟩, .inr ⟨.inl rfl, rfl, ?_⟩⟩
    norm_num [sideEdge, curveEdge]

/-- A reversed curve and a short one: the hypotheses of the violations. -/
example : ({ curveEdge ⟨3, 0, 0⟩ ⟨3, 2, 0⟩ with reversed := true } : Edge).curved ∧
    1 / 10 < ({ curveEdge ⟨3, 0, 0⟩ ⟨3, 2, 0⟩ with reversed := true } : Edge).length ∧
    (curveEdge ⟨3, 0, 0⟩ ⟨3, 1 / 20, 0⟩).curved ∧ (curveEdge ⟨3, 0, 0⟩ ⟨3, 1 / 20, 0⟩).length ≤ 1 / 10 :=
  ⟨.inl rfl, by norm_num [sideEdge, curveEdge], .inl rfl, by norm_num [sideEdge, curveEdge]⟩

/-- C87: wires with edges of other kinds (splines, ...) are refused. -/
theorem C87_refused {before after : List Edge} {e : Edge} (h : ∀ x ∈ before, x.geom = .line ∨ x.curved)
    (he : e.geom ≠ .line ∧ ¬ e.curved) (closed : Bool) : wirePolygon (before ++ e :: after) closed = .error .valueError := by
  have key : flattenEdges (before ++ e :: after) = .error .valueError := by
    induction before with
    | nil =>
      simp only [List.nil_append, flattenEdges, if_neg he.1,
        if_neg (show ¬ (e.geom = .arc ∨ e.geom = .circle ∨ e.geom = .offset) from he.2)]
      rfl
    | cons x xs ih =>
      have hx := ih (fun y hy => h y (by simp [hy]))
      rcases h x (by simp) with hl | hc
      · simp only [List.cons_append, flattenEdges, hl, if_true, ok_bind, hx]; rfl
      · have hnl : x.geom ≠ .line := by
          rcases hc with hc | hc | hc <;> rw [hc] <;> decide
        simp only [List.cons_append, flattenEdges, if_neg hnl,
          if_pos (show x.geom = .arc ∨ x.geom = .circle ∨ x.geom = .offset from hc), ok_bind, hx]
        rfl
  simp only [wirePolygon, key]
  rfl

/-- C87 does not hold for reversed curves: their points are taken backwards, and end at the start of the edge. -/
theorem C87_violated_reversed {e : Edge} (hc : e.curved) (hr : e.reversed = true) (hl : 1 / 10 < e.length) :
    ∃ n : ℕ, 1 ≤ n ∧ flattenEdges [e] = .ok ((List.range n).map (fun k : ℕ => e.travel (1 - (k + 1 : ℚ) / n))) ∧
      ∃ pts, flattenEdges [e] = .ok pts ∧ pts.getLast? = some (e.travel 0) := by
  obtain ⟨n, n1, n2, -⟩ := positionSpace_tail hl
  have hnl : e.geom ≠ .line := by
    rcases hc with hc | hc | hc <;> rw [hc] <;> decide
  have ht : ∀ d, e.travel (1 - d) = e.posLen d := by
    intro d; unfold Edge.travel; rw [hr]; simp
  have key : flattenEdges [e] = .ok ((List.range n).map (fun k : ℕ => e.travel (1 - (k + 1 : ℚ) / n))) := by
    simp only [flattenEdges, if_neg hnl, if_pos (show e.geom = .arc ∨ e.geom = .circle ∨ e.geom = .offset from hc), ok_bind,
      n2, List.map_map, ht, List.append_nil]
    rfl
  refine ⟨n, n1, key, _, key, ?_⟩
  obtain ⟨m, rfl⟩ : ∃ m, n = m + 1 := ⟨n - 1, by omega⟩
  rw [List.range_succ, List.map_append]
  have : ((m : ℚ) + 1) ≠ 0 := by positivity
  simp [this]

/-- C87 does not hold for short curves: those not longer than 1/10 are left out, also their ends. -/
theorem C87_violated_short {e : Edge} (hc : e.curved) (hl : e.length ≤ 1 / 10) (es : List Edge) :
    flattenEdges (e :: es) = flattenEdges es := by
  have hnl : e.geom ≠ .line := by
    rcases hc with hc | hc | hc <;> rw [hc] <;> decide
  have hp : (positionSpace e).tail = [] := by
    unfold positionSpace
    have h1 : ⌈e.length / (1 / 10)⌉ ≤ 1 := by
      rw [Int.ceil_le, div_le_iff₀ (by norm_num)]; push_cast; linarith
    simp only
    split
    · rfl
    · rename_i h2
      have : ⌈e.length / (1 / 10)⌉.toNat = 0 := by omega
      rw [this]
      rfl
  simp only [flattenEdges, if_neg hnl, if_pos (show e.geom = .arc ∨ e.geom = .circle ∨ e.geom = .offset from hc), ok_bind, hp,
    List.map_nil, List.nil_append]
  cases flattenEdges es <;> rfl

end CQ
