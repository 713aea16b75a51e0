import Verif.Props.UnitsSurface
import Verif.Props.UnitsExample

/-! # C134 for 3D surfacing: an instance and a violation -/

namespace CQ

theorem smallest_conv (κ : Units) (xs : List ℚ) : smallest (xs.map (κ.c * ·)) = κ.c * smallest xs := by
  have h : ∀ (d : ℚ) (xs : List ℚ), (xs.map (κ.c * ·)).foldr min (κ.c * d) = κ.c * xs.foldr min d := by
    intro d xs
    induction xs with
    | nil => rfl
    | cons x xs ih => rw [List.map_cons, List.foldr_cons, List.foldr_cons, ih, mul_min_of_nonneg _ _ κ.pos.le]
  unfold smallest
  rw [← h]
  cases xs <;> simp

theorem largest_conv (κ : Units) (xs : List ℚ) : largest (xs.map (κ.c * ·)) = κ.c * largest xs := by
  have h : ∀ (d : ℚ) (xs : List ℚ), (xs.map (κ.c * ·)).foldr max (κ.c * d) = κ.c * xs.foldr max d := by
    intro d xs
    induction xs with
    | nil => rfl
    | cons x xs ih => rw [List.map_cons, List.foldr_cons, List.foldr_cons, ih, mul_max_of_nonneg _ _ κ.pos.le]
  unfold largest
  rw [← h]
  cases xs <;> simp

/-- The plane of `boxSurface` in the new units. -/
def boxSurfaceIn (κ : Units) : SurfaceEngine :=
  { boxSurface with bottom := κ.c * -3, drop := fun ps => ps.map (fun _ => κ.c * -3) }

theorem boxSurface_units (κ : Units) : SurfaceUnits κ boxSurface (boxSurfaceIn κ) := by
  have hx : ∀ bs : List (List Pt), (bs.map (List.map (Pt.conv κ))).flatten.map Pt.x = (bs.flatten.map Pt.x).map (κ.c * ·) := by
    intro bs
    rw [← List.map_flatten, List.map_map, List.map_map]
    rfl
  have hy : ∀ bs : List (List Pt), (bs.map (List.map (Pt.conv κ))).flatten.map Pt.y = (bs.flatten.map Pt.y).map (κ.c * ·) := by
    intro bs
    rw [← List.map_flatten, List.map_map, List.map_map]
    rfl
  refine ⟨?_, rfl, rfl, ?_, ?_, ?_, ?_⟩
  · intro v
    simp only [boxSurfaceIn, boxSurface, Pt.conv, abs_mul, abs_of_pos κ.pos, mul_add]
  · intro ps
    simp only [boxSurfaceIn, boxSurface, List.map_map]
    rfl
  · intro bs
    simp only [boxSurfaceIn, boxSurface, boxScan, hx, hy, smallest_conv, largest_conv, convBounds]
  · intro b
    simp only [boxSurfaceIn, boxSurface, boxScan, convBounds]
    ring
  · intro bs ls
    simp only [boxSurfaceIn, boxSurface, boxScan, hx, hy, smallest_conv, largest_conv, Except.map]
    rw [List.filter_map, List.map_map, List.map_map]
    congr 1
    have hf : ∀ l : Pt × Pt, (κ.c * smallest (bs.flatten.map Pt.y) < (convLine κ l).1.y ∧ (convLine κ l).1.y < κ.c * largest (bs.flatten.map Pt.y)) ↔
        (smallest (bs.flatten.map Pt.y) < l.1.y ∧ l.1.y < largest (bs.flatten.map Pt.y)) := fun l =>
      and_congr (mul_lt_mul_iff_right₀ κ.pos) (mul_lt_mul_iff_right₀ κ.pos)
    simp only [Function.comp_def, hf]
    rfl

theorem idleKernel_units (κ : Units) : FaceKernelUnits κ idleKernel := ⟨fun _ _ => rfl, fun _ _ => rfl, fun _ _ => rfl⟩

theorem onSegment_conv {κ : Units} {a b x : Pt} (h : OnSegment a b x) : OnSegment (a.conv κ) (b.conv κ) (x.conv κ) := by
  obtain ⟨t, t0, t1, rfl⟩ := h
  refine ⟨t, t0, t1, ?_⟩
  simp only [Pt.lerp, Pt.conv]
  ext <;> simp only <;> ring

theorem onSegment_unconv {κ : Units} {a b y : Pt} (h : OnSegment (a.conv κ) (b.conv κ) y) : ∃ x, OnSegment a b x ∧ y = x.conv κ := by
  obtain ⟨t, t0, t1, rfl⟩ := h
  refine ⟨_, ⟨t, t0, t1, rfl⟩, ?_⟩
  simp only [Pt.lerp, Pt.conv]
  ext <;> simp only <;> ring

/-- Points on a side, and points far from it, are near to it in both units or in none. -/
theorem near_alike {κ : Units} (hc : 1 / 10000000 ≤ κ.c ^ 2) {seg : Pt × Pt} {q : Pt}
    (h : OnSegment seg.1 seg.2 q ∨ ∀ x, OnSegment seg.1 seg.2 x → 1 ≤ sqDist q x) :
    NearSegment (convLine κ seg) (Pt.conv κ q) ↔ NearSegment seg q := by
  have hs : ∀ p q : Pt, sqDist (p.conv κ) (q.conv κ) = κ.c ^ 2 * sqDist p q := by
    intro p q
    simp only [sqDist, Pt.conv]
    ring
  rcases h with h | h
  · have h0 : ∀ p : Pt, sqDist p p = 0 := fun p => by simp [sqDist]
    exact ⟨fun _ => ⟨q, h, by rw [h0]; norm_num⟩, fun _ => ⟨_, onSegment_conv h, by rw [h0]; norm_num⟩⟩
  · constructor
    · rintro ⟨y, hy, hlt⟩
      obtain ⟨x, hx, rfl⟩ := onSegment_unconv hy
      rw [hs] at hlt
      have := h x hx
      nlinarith
    · rintro ⟨x, hx, hlt⟩
      have := h x hx
      linarith

theorem scans_check {eng : ScanClipper} {poly : List Pt} {step : ℚ} {P : List (Pt × Pt) → Prop} [DecidablePred P]
    (h : (match scanTemplates eng [poly] step with
      | .ok ts => (match eng.clip [poly] ts with | .ok ls => decide (P ls) | .error _ => false)
      | .error _ => false) = true) : ∀ lines, ScansTo eng poly step lines → P lines := by
  rintro lines ⟨ts, h1, h2⟩
  rw [h1] at h
  simp only [h2] at h
  exact of_decide_eq_true h

/-- The hypotheses of `C134_surface_partial` hold for a square of 254 mm, surfaced with a tool of 50 mm in millimetres and in inches: the square around it
has its corners at whole inches. -/
example : SurfaceUnits toInches boxSurface (boxSurfaceIn toInches) ∧ FaceKernelUnits toInches idleKernel ∧
    (∀ w, SurfacedOutline idleKernel (50 * 0 + 0) [rectangle 0 0 254 254 0] w → (∀ e ∈ w, TenthsAlike toInches e) ∧
      ∀ poly, wirePolygon w true = .ok poly → ScanAlike toInches boxSurface.scan (50 * (8 / 10)) poly) ∧
    (match surface3d boxSurface idleKernel { toolDiameter := 50, interpolationStep := 100 } (0, 0) (some (0, 0)) [rectangle 0 0 254 254 0] demoInit with
      | .ok cs => decide (cs.length = 37) | .error _ => false) = true := by
  refine ⟨boxSurface_units _, idleKernel_units _, ?_, by decide +kernel⟩
  rintro w ⟨b, hb, ws, h, hw⟩
  cases h
  rw [List.mem_singleton] at hb hw
  subst hb hw
  refine ⟨?_, ?_⟩
  · intro e he
    simp only [rectangle, List.rotate_zero, List.mem_cons, List.not_mem_nil, or_false] at he
    rcases he with rfl | rfl | rfl | rfl <;> exact Or.inl rfl
  · intro poly hp
    have hp' : wirePolygon (rectangle 0 0 254 254 0).outer true = .ok [⟨254, 0⟩, ⟨254, 254⟩, ⟨0, 254⟩, ⟨0, 0⟩] := by decide +kernel
    rw [hp'] at hp
    cases hp
    have hb : boxScan.bounds [[⟨254, 0⟩, ⟨254, 254⟩, ⟨0, 254⟩, ⟨0, 0⟩]] = (0, 0, 254, 254) := by decide +kernel
    refine ⟨?_, ?_, ?_⟩
    · intro l t r b h hbo hd m hm
      rw [show boxSurface.scan = boxScan from rfl, hb] at hbo
      cases hbo
      have : h = 254 := by
        simp only [boxSurface, boxScan] at hd
        linarith
      subst this
      simp only [List.mem_cons, List.not_mem_nil, or_false] at hm
      rcases hm with rfl | rfl <;> decide +kernel
    · intro l t r b h hbo hd m hm
      rw [show boxSurface.scan = boxScan from rfl, hb] at hbo
      cases hbo
      have : h = 254 := by
        simp only [boxSurface, boxScan] at hd
        linarith
      subst this
      simp only [List.mem_cons, List.not_mem_nil, or_false] at hm
      rcases hm with rfl | rfl <;> decide +kernel
    · intro lines hl q hq seg hs
      have hy := scans_check (P := fun ls => ∀ q ∈ lineEnds ls, (q.x = 0 ∨ q.x = 254) ∧ 1 ≤ q.y ∧ q.y ≤ 253) (by decide +kernel)
        lines hl q hq
      obtain ⟨x, y⟩ := q
      obtain ⟨hx, h1, h2⟩ := hy
      simp only at hx h1 h2
      simp only [segments, List.mem_cons, List.not_mem_nil, or_false] at hs
      refine near_alike (by norm_num [toInches]) ?_
      have far : ∀ a b : Pt, (∀ p, OnSegment a b p → 1 ≤ |x - p.x| ∨ 1 ≤ |y - p.y|) → ∀ p, OnSegment a b p → 1 ≤ sqDist ⟨x, y⟩ p := by
        intro a b h p hp
        simp only [sqDist]
        rcases h p hp with h | h
        · have := (one_le_sq_iff_one_le_abs _).mpr h
          nlinarith [sq_nonneg (y - p.y)]
        · have := (one_le_sq_iff_one_le_abs _).mpr h
          nlinarith [sq_nonneg (x - p.x)]
      rcases hs with rfl | rfl | rfl
      · rcases hx with rfl | rfl
        · right
          refine far _ _ ?_
          rintro p ⟨t, -, -, rfl⟩
          left
          simp only [Pt.lerp]
          norm_num
        · left
          refine ⟨y / 254, by linarith, by linarith, ?_⟩
          simp only [Pt.lerp, Pt.mk.injEq]; constructor <;> ring
      · right
        refine far _ _ ?_
        rintro p ⟨t, -, -, rfl⟩
        right
        simp only [Pt.lerp, sub_self, mul_zero, add_zero]
        rw [abs_of_neg (by linarith)]
        linarith
      · rcases hx with rfl | rfl
        · left
          refine ⟨1 - y / 254, by linarith, by linarith, ?_⟩
          simp only [Pt.lerp, Pt.mk.injEq]; constructor <;> ring
        · right
          refine far _ _ ?_
          rintro p ⟨t, -, -, rfl⟩
          left
          simp only [Pt.lerp]
          norm_num

/-- C134 fails for 3D surfacing, whose scanlines begin at a whole unit: on a plane face of 10 by 8 mm with default settings, the centre of the tool
comes within 0.08 mm of the lower side in millimetres; in inches a strip of 0.1" (2.54 mm) is left out there. -/
theorem C134_violated_scan : ∃ (κ : Units) (eng eng' : SurfaceEngine) (k : FaceKernel) (b : BoundaryFace) (cs cs' : List Motion),
    κ.c = 10 / 254 ∧ κ.unit = .imperial ∧ SurfaceUnits κ eng eng' ∧ FaceKernelUnits κ k ∧
    (∀ w, SurfacedOutline k 0 [b] w → w = b.outer) ∧ (∀ e ∈ b.outer, e.geom = .line) ∧
    (∃ e ∈ b.outer, e.startPoint.y = 0 ∧ e.endPoint.y = 0) ∧
    surface3d eng k {} (0, 0) (some (0, 0)) [b] demoInit = .ok cs ∧
    surface3d eng' k (SurfaceArgs.conv κ {}) (0, 0) (some (0, 0)) [b.conv κ] (demoInit.conv κ) = .ok cs' ∧
    (∃ c ∈ cs, c.kind = .cut ∧ c.fin.y = some (2 / 25)) ∧ ∀ c ∈ cs', ∀ y ∈ c.fin.y, 1 / 10 ≤ y := by
  have h : (match surface3d boxSurface idleKernel {} (0, 0) (some (0, 0)) [rectangle 0 0 10 8 0] demoInit,
        surface3d (boxSurfaceIn toInches) idleKernel (SurfaceArgs.conv toInches {}) (0, 0) (some (0, 0))
          [(rectangle 0 0 10 8 0).conv toInches] (demoInit.conv toInches) with
      | .ok cs, .ok cs' => decide ((∃ c ∈ cs, c.kind = .cut ∧ c.fin.y = some (2 / 25)) ∧ ∀ c ∈ cs', ∀ y ∈ c.fin.y, 1 / 10 ≤ y)
      | _, _ => false) = true := by decide +kernel
  cases h1 : surface3d boxSurface idleKernel {} (0, 0) (some (0, 0)) [rectangle 0 0 10 8 0] demoInit with
  | error e => rw [h1] at h; cases h
  | ok cs =>
    cases h2 : surface3d (boxSurfaceIn toInches) idleKernel (SurfaceArgs.conv toInches {}) (0, 0) (some (0, 0))
        [(rectangle 0 0 10 8 0).conv toInches] (demoInit.conv toInches) with
    | error e => rw [h1, h2] at h; cases h
    | ok cs' =>
      rw [h1, h2] at h
      obtain ⟨h3, h4⟩ := of_decide_eq_true h
      refine ⟨toInches, boxSurface, boxSurfaceIn toInches, idleKernel, rectangle 0 0 10 8 0, cs, cs', by norm_num [toInches], rfl,
        boxSurface_units _, idleKernel_units _, ?_, ?_, ?_, h1, h2, h3, h4⟩
      · rintro w ⟨b, hb, ws, h, hw⟩
        cases h
        rw [List.mem_singleton] at hb hw
        rw [hw, hb]
      · intro e he
        simp only [rectangle, List.rotate_zero, List.mem_cons, List.not_mem_nil, or_false] at he
        rcases he with rfl | rfl | rfl | rfl <;> rfl
      · exact ⟨sideEdge ⟨0, 0, 0⟩ ⟨10, 0, 0⟩, by simp [rectangle], rfl, rfl⟩

end CQ
