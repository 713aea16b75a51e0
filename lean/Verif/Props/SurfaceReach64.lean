import Verif.Spec.SurfaceReach64
import Verif.Props.SurfaceStep64

/-! # Property C148: 3D surfacing in floating point reaches every sampled point -/

namespace CQ

/-- Neighbouring depths of `arange` are a stepdown apart, up to rounding. -/
theorem steps64_gap {top bottom s L : ℚ} {n : ℕ} (hs : 0 < s) (hL : 1 ≤ L) (h1 : |top| ≤ L) (h2 : |bottom| ≤ L) (h3 : s ≤ L)
    (hn : (steps64 top bottom s).length ≤ n) (hn2 : n ≤ 2 ^ 49) {k : ℕ} {x y : ℚ}
    (hx : (steps64 top bottom s)[k]? = some x) (hy : (steps64 top bottom s)[k + 1]? = some y) : s - passError n (3 * L) ≤ x - y := by
  obtain ⟨hF, -⟩ := steps64_first hs hL h1 h3
  unfold steps64 at hn hx hy
  generalize b64 (top - s) = F at *
  have hc := arange64_count hs (M := 3 * L) (by linarith) hF (by linarith : |bottom| ≤ 3 * L) (by linarith)
  have hlen : (arange64 F bottom (-s)).length = ⌈b64 (b64 (bottom - F) / -s)⌉.toNat := by simp [arange64]
  rw [hlen] at hn
  have hval : ∀ (i : ℕ) (v : ℚ), (arange64 F bottom (-s))[i]? = some v → |v - (F - i * s)| ≤ (4 * n + 12) * 2 ^ (-52 : ℤ) * (3 * L) := by
    intro i v hv
    have hi : i < ⌈b64 (b64 (bottom - F) / -s)⌉.toNat := by
      rw [← hlen]; exact (List.getElem?_eq_some_iff.mp hv).1
    unfold arange64 at hv
    rw [List.getElem?_map, List.getElem?_range hi] at hv
    simp only [Option.map_some, Option.some.injEq] at hv
    subst hv
    refine arange64_value (T := bottom) hs (by linarith) hF (by linarith) (by linarith) (hi.le.trans hn) hn2 ?_
    have h4 : (i : ℤ) < ⌈b64 (b64 (bottom - F) / -s)⌉ := by omega
    have h5 : (i : ℚ) < b64 (b64 (bottom - F) / -s) := by exact_mod_cast Int.lt_ceil.mp h4
    have h6 := (abs_le.mp hc).2
    have h7 := mul_lt_mul_of_pos_right h5 hs
    generalize b64 (b64 (bottom - F) / -s) = cnt at h6 h7
    linarith
  have g1 := abs_le.mp (hval k x hx)
  have g2 := abs_le.mp (hval (k + 1) y hy)
  have hμ := two_zpow_pos (-52)
  unfold passError
  generalize (2 : ℚ) ^ (-52 : ℤ) = μ at *
  push_cast at g2
  have : 0 ≤ μ * (3 * L) := by positivity
  nlinarith

/-- The pass in which a point is cut at its height. -/
theorem pass_for64 {stepdown : Option ℚ} {top bottom L : ℚ} {n : ℕ} {depths : List ℚ} (h : surfaceDepths64 stepdown top bottom = .ok depths)
    (hL : 1 ≤ L) (htL : |top| ≤ L) (hbL : |bottom| ≤ L) (hn : depths.length ≤ n) (hn2 : n ≤ 2 ^ 49)
    {hp hq : ℚ} (hs : ∀ s, stepdown = some s → s < 0 ∧ -s ≤ L ∧ hp ≤ hq - s - passError n (3 * L) ∧ passError n (3 * L) ≤ -s)
    (hb : bottom ≤ hq) (hp0 : hp ≤ 0) (hq0 : hq ≤ 0) :
    ∃ (i : ℕ) (d : ℚ), depths[i]? = some d ∧ d ≤ hq ∧ hp ≤ passLimit depths i ∧ hq ≤ passLimit depths i := by
  have single : depths = [bottom] → ∃ (i : ℕ) (d : ℚ), depths[i]? = some d ∧ d ≤ hq ∧ hp ≤ passLimit depths i ∧
      hq ≤ passLimit depths i := by
    rintro rfl
    exact ⟨0, bottom, rfl, hb, by simpa [passLimit] using hp0, by simpa [passLimit] using hq0⟩
  unfold surfaceDepths64 at h
  cases stepdown with
  | none => cases h; exact single rfl
  | some s =>
    obtain ⟨hs0, hs1, hs2, hs3⟩ := hs s rfl
    simp only [if_neg hs0.ne] at h
    have he : arange64 (b64 (top + s)) bottom s = steps64 top bottom (-s) := by rw [steps64, sub_neg_eq_add, neg_neg]
    rw [he] at h
    obtain ⟨ds, hds⟩ : ∃ ds, ds = steps64 top bottom (-s) := ⟨_, rfl⟩
    rw [← hds] at h
    have hex : ∃ d ∈ depths, d ≤ hq := by
      cases hg : ds.getLast? with
      | none => rw [hg] at h; cases h
      | some last =>
        rw [hg] at h
        simp only at h
        split at h
        · cases h; exact ⟨bottom, by simp, hb⟩
        · rename_i he
          cases h
          exact ⟨last, List.mem_of_getLast? hg, by rw [not_not.mp he]; exact hb⟩
    have hpre : ∀ i : ℕ, i < ds.length → depths[i]? = ds[i]? := by
      intro i hi
      cases hg : ds.getLast? with
      | none => rw [hg] at h; cases h
      | some last =>
        rw [hg] at h
        simp only at h
        split at h
        · cases h; rw [List.getElem?_append_left hi]
        · cases h; rfl
    have hlen : depths.length ≤ ds.length + 1 ∧ ds.length ≤ depths.length := by
      cases hg : ds.getLast? with
      | none => rw [hg] at h; cases h
      | some last =>
        rw [hg] at h
        simp only at h
        split at h
        · cases h; simp
        · cases h; omega
    clear h
    obtain ⟨d0, hd0, hd0q⟩ := hex
    obtain ⟨i0, hi0, rfl⟩ := List.mem_iff_getElem.mp hd0
    have hP : ∃ i : ℕ, ∃ d, depths[i]? = some d ∧ d ≤ hq := ⟨i0, _, List.getElem?_eq_getElem hi0, hd0q⟩
    classical
    obtain ⟨d, hd, hdq⟩ := Nat.find_spec hP
    have hmin : ∀ m : ℕ, m < Nat.find hP → ¬ ∃ d, depths[m]? = some d ∧ d ≤ hq := fun m hm => Nat.find_min hP hm
    obtain ⟨i, hi⟩ : ∃ i, i = Nat.find hP := ⟨_, rfl⟩
    rw [← hi] at hd hmin
    refine ⟨i, d, hd, hdq, ?_⟩
    unfold passLimit
    split
    · rename_i h1
      have hil : i < depths.length := (List.getElem?_eq_some_iff.mp hd).1
      have h2 : i - 1 < ds.length := by omega
      have h3 : i - 2 < ds.length := by omega
      have e1 := List.getElem?_eq_getElem h2
      have e2 := List.getElem?_eq_getElem h3
      have hgap := steps64_gap (k := i - 2) (x := ds[i - 2]) (y := ds[i - 1]) (neg_pos.mpr hs0) hL htL hbL hs1
        (by rw [← hds]; omega : (steps64 top bottom (-s)).length ≤ n) hn2 (by rw [← hds]; exact e2)
        (by rw [← hds, show i - 2 + 1 = i - 1 by omega]; exact e1)
      rw [← hpre _ h2] at e1
      rw [← hpre _ h3] at e2
      have hgt : hq < ds[i - 1] := by
        by_contra hle
        exact hmin (i - 1) (by omega) ⟨_, e1, not_lt.mp hle⟩
      rw [List.getD_eq_getElem?_getD, e2, Option.getD_some]
      constructor <;> linarith
    · exact ⟨hp0, hq0⟩

/-- A point that follows a point not much higher is cut to. -/
theorem boundary64_reached {eng : SurfaceEngine} {args : SurfaceArgs} {j : Job} {seqs : List (List Pt)} {depths : List ℚ}
    {h : Pt → ℚ} {L : ℚ} {n : ℕ} (h3 : surfaceDepths64 args.stepdown args.topHeight eng.bottom = .ok depths)
    (hL : 1 ≤ L) (htL : |args.topHeight| ≤ L) (hbL : |eng.bottom| ≤ L) (hn : depths.length ≤ n) (hn2 : n ≤ 2 ^ 49)
    {out A B : List Pt} {p q : Pt} (hout : out ∈ seqs) (ho : out = A ++ p :: q :: B) (hbot : eng.bottom ≤ h q) (hp : h p ≤ 0) (hq : h q ≤ 0)
    (hs : ∀ s, args.stepdown = some s → s < 0 ∧ -s ≤ L ∧ h p ≤ h q - s - passError n (3 * L) ∧ passError n (3 * L) ≤ -s) :
    ∃ c ∈ passesMoves j depths (seqs.map (fun s => s.map (lift h))) 0 {} depths, CutsTo q (h q) c := by
  subst ho
  obtain ⟨i, d, hi, hdq, l1, l2⟩ := pass_for64 h3 hL htL hbL hn hn2 hs hbot hp hq
  obtain ⟨passes, e, hl, hps⟩ := passesMoves_split (j := j) (depths := depths)
    (seqs := seqs.map (fun s => s.map (lift h))) depths 0 {}
  have hil : i < depths.length := (List.getElem?_eq_some_iff.mp hi).1
  obtain ⟨pos, hpos⟩ := hps i d _ hi (List.getElem?_eq_getElem (hl ▸ hil))
  rw [Nat.zero_add] at hpos
  obtain ⟨X, Y, hXY⟩ := chopFrom_pair (p := lift h p) (q := lift h q) l1 l2 (B.map (lift h)) (A.map (lift h)) []
  have hpiece : X ++ lift h p :: lift h q :: Y ∈
      chopSequences (seqs.map (fun s => s.map (lift h))) (passLimit depths i) := by
    refine List.mem_flatMap.mpr ⟨_, List.mem_map.mpr ⟨_, hout, rfl⟩, ?_⟩
    simpa using hXY
  obtain ⟨pos', hmem⟩ := piecesMoves_mem (j := j) (d := d) (pos := pos) hpiece
  have hcut : ∃ c ∈ pieceMoves j d pos' (X ++ lift h p :: lift h q :: Y),
      c.kind = .cut ∧ c.fin = ⟨some q.x, some q.y, some (max d (h q))⟩ := by
    have key : ∀ (a : Vec) (L : List Vec), lift h q ∈ L → ∃ c ∈ pieceMoves j d pos' (a :: L),
        c.kind = .cut ∧ c.fin = ⟨some q.x, some q.y, some (max d (h q))⟩ := by
      intro a L hL
      obtain ⟨c, hc, h'⟩ := surfaceCuts_mem (d := d)
        (pos := (rapidAbs { z := some j.opSafeHeight } (some (rapidAbs { x := some a.x, y := some a.y }
          (some (rapidAbs { z := some j.rapidHeight } (some pos')).fin)).fin)).fin) hL
      exact ⟨c, List.mem_append_right _ hc, h'⟩
    cases X with
    | nil => exact key _ _ (by simp)
    | cons x X => exact key _ _ (by simp)
  obtain ⟨c, hcm, hk, hf⟩ := hcut
  refine ⟨c, ?_, by rw [hk]; rfl, ?_⟩
  · rw [e]
    refine List.mem_flatten.mpr ⟨passes[i]'(hl ▸ hil), List.getElem_mem _, ?_⟩
    rw [hpos]
    exact hmem c hcm
  · rw [hf, max_eq_right hdq]; rfl

/-- C148.  The first point of a path is sampled twice (and so among those of `C148_sampled_partial`), if it is a double and the first segment is
not shorter than the smallest fraction of the interpolation step. -/
theorem C148_first {eng : SurfaceEngine} {step : ℚ} {a b : Pt} {path out : List Pt}
    (h : interpolateSequence64 eng step (a :: b :: path) = .ok out) (hs : 0 < step) (hax : IsDouble a.x) (hay : IsDouble a.y)
    (hld : IsDouble (eng.norm ⟨b64 (b.x - a.x), b64 (b.y - a.y)⟩))
    (hl : step * 2 ^ (-1000 : ℤ) ≤ eng.norm ⟨b64 (b.x - a.x), b64 (b.y - a.y)⟩) : a ∈ out.tail := by
  obtain ⟨rest, h1, h⟩ := bind_ok.mp h
  cases h
  unfold interpolateFrom64 at h1
  dsimp only at h1
  split at h1
  · cases h1
  · rw [if_neg hs.ne'] at h1
    obtain ⟨r', -, h1⟩ := bind_ok.mp h1
    cases h1
    generalize eng.norm ⟨b64 (b.x - a.x), b64 (b.y - a.y)⟩ = l at *
    have hpos : 0 < b64 (l / step) := by
      refine lt_of_lt_of_le (two_zpow_pos (-1000)) (le_b64 (isDouble_two_zpow (by norm_num)) ?_)
      rw [le_div_iff₀ hs, mul_comm]
      exact hl
    have hc : 0 < ⌈b64 (l / step)⌉ := Int.ceil_pos.mpr hpos
    obtain ⟨n, hn⟩ : ∃ n, ⌈b64 (l / step)⌉.toNat = n + 1 := ⟨⌈b64 (l / step)⌉.toNat - 1, by omega⟩
    unfold arange64
    rw [show l - 0 = l by ring, b64_double hld, hn, List.range_succ_eq_map]
    simp [b64_zero, b64_double hax, b64_double hay]

/-- Every sampled point of a boundary is cut to. -/
theorem boundary64_sampled {sq : ℚ → ℚ} {eng : SurfaceEngine} {args : SurfaceArgs} {j : Job} {poly : List Pt} {cs : List Motion} {h : Pt → ℚ}
    {K r L : ℚ} {n : ℕ} (hd : ∀ ps, eng.drop ps = ps.map h) (hK : SlopeUpTo K h) (hK0 : 0 ≤ K) (h0 : ∀ p, h p ≤ 0)
    (hbot : ∀ p, eng.bottom ≤ h p) (hm : Measures64 r eng.norm) (hr0 : 0 ≤ r) (hr : r ≤ 2) (hL : 1 ≤ L)
    (hclip : ClipsWithin L eng.scan) (hpoly : ∀ p ∈ poly, p.Upto L) (hi : 0 < args.interpolationStep)
    (hiL : args.interpolationStep ≤ L) (hid : IsDouble args.interpolationStep) (htL : |args.topHeight| ≤ L) (hbL : |eng.bottom| ≤ L)
    (hbt : eng.bottom ≤ args.topHeight) (hn2 : n ≤ 2 ^ 49)
    (hs : ∀ s, args.stepdown = some s → s < 0 ∧ -s ≤ L ∧ (args.topHeight - eng.bottom) / -s + 2 ≤ n ∧
      K * (r * args.interpolationStep + L / 10 ^ 13) + passError n (3 * L) ≤ -s)
    (hn1 : 1 ≤ n) (hc : surfaceBoundary64 sq eng args j poly = .ok cs) :
    ∃ paths, zigzag64 sq eng.scan [poly] args.toolDiameter args.stepover = .ok paths ∧
      ∀ path ∈ paths, ∃ out, interpolateSequence64 eng args.interpolationStep path = .ok out ∧ ∀ q ∈ out.tail, ∃ c ∈ cs, CutsTo q (h q) c := by
  obtain ⟨paths, seqs, depths, h1, h2, h3, rfl⟩ := surfaceBoundary64_ok hd hc
  have hmu := two_zpow_pos (-52)
  have hpe : ∀ m : ℕ, 0 ≤ passError m (3 * L) := by intro m; unfold passError; positivity
  have hL0 : 0 ≤ L / 10 ^ 13 := by positivity
  have hgap0 : 0 ≤ r * args.interpolationStep + L / 10 ^ 13 := add_nonneg (mul_nonneg hr0 hi.le) hL0
  have hlen : depths.length ≤ n := by
    cases hst : args.stepdown with
    | none => rw [hst] at h3; cases h3; simpa using hn1
    | some s =>
      obtain ⟨s1, s2, s3, s4⟩ := hs s hst
      rw [hst, ← neg_neg s] at h3
      obtain ⟨-, hl, -⟩ := C98_passes_partial (neg_pos.mpr s1) hL htL hbL s2 hbt h3
      have h4 : ((depths.length : ℚ) - 1) * -s ≤ (args.topHeight - eng.bottom) / -s * -s + 1 * -s := by
        have hne : -s ≠ 0 := (neg_pos.mpr s1).ne'
        have : passError 0 (3 * L) ≤ passError n (3 * L) := by
          unfold passError
          apply mul_le_mul_of_nonneg_right _ (by linarith)
          apply mul_le_mul_of_nonneg_right _ hmu.le
          have : (0 : ℚ) ≤ n := Nat.cast_nonneg n
          push_cast
          linarith
        have := mul_nonneg hK0 hgap0
        rw [div_mul_cancel₀ _ hne, one_mul]
        linarith
      rw [← add_mul] at h4
      have h5 := le_of_mul_le_mul_right h4 (neg_pos.mpr s1)
      have : (depths.length : ℚ) ≤ n := by linarith
      exact_mod_cast this
  refine ⟨paths, h1, ?_⟩
  intro path hpath
  obtain ⟨out, hout, ho⟩ := forall2_left h2 hpath
  refine ⟨out, ho, ?_⟩
  obtain ⟨-, hdb⟩ := zigzag64_points (P := Pt.Upto L) (bs := [poly]) (fun t s => hclip [poly] t s (by simpa using hpoly))
    (by simpa using hpoly) h1 path hpath
  have hchain := refinesUpTo_chain (C130_samples hm hL hr0 hr hi hiL hid (hdb) ho)
  have reach : ∀ (A B : List Pt) (p q : Pt), out = A ++ p :: q :: B →
      ∃ c ∈ passesMoves j depths (seqs.map (fun s => s.map (lift h))) 0 {} depths, CutsTo q (h q) c := by
    intro A B p q e
    refine boundary64_reached h3 hL htL hbL hlen hn2 hout e (hbot q) (h0 p) (h0 q) ?_
    intro s hst
    obtain ⟨s1, s2, s3, s4⟩ := hs s hst
    have hpq : sqDist p q ≤ (r * args.interpolationStep + L / 10 ^ 13) ^ 2 := by
      rw [e] at hchain
      exact (List.isChain_cons_cons.mp (List.isChain_append.mp hchain).2.1).1
    have := hK p q _ hgap0 hpq
    have := mul_nonneg hK0 hgap0
    exact ⟨s1, s2, by linarith, by linarith⟩
  intro q hq
  cases e : out with
  | nil => rw [e] at hq; cases hq
  | cons a rest =>
    rw [e] at hq
    obtain ⟨A, C, e'⟩ := List.append_of_mem hq
    rw [List.tail_cons] at e'
    rcases List.eq_nil_or_concat A with rfl | ⟨A, p, rfl⟩
    · exact reach [] C a q (by rw [e, e']; rfl)
    · exact reach (a :: A) C p q (by rw [e, e']; simp)

theorem surface3d64_each {sq : ℚ → ℚ} {eng : SurfaceEngine} {k : FaceKernel} {args : SurfaceArgs} {oo : ℚ × ℚ} {io : Option (ℚ × ℚ)}
    {bs : List BoundaryFace} {j : Job} {cs : List Motion} (hc : surface3d64 sq eng k args oo io bs j = .ok cs) {poly : List Pt}
    (hp : SurfacePolygon k args oo io bs poly) : ∃ part, surfaceBoundary64 sq eng args j poly = .ok part ∧ ∀ c ∈ part, c ∈ cs := by
  obtain ⟨faces, f, h1, h2, h3⟩ := hp
  unfold surface3d64 at hc
  rw [h1, ok_bind] at hc
  obtain ⟨css, h4, hc⟩ := bind_ok.mp hc
  cases hc
  obtain ⟨part, hpart, h5⟩ := forall2_left (mapE_ok.mp h4) h2
  rw [h3, ok_bind] at h5
  exact ⟨part, h5, fun c hc => List.mem_flatten.mpr ⟨part, hpart, hc⟩⟩

/-- C148.  3D surfacing in floating point of a shape `h` that is not above the job plane and rises by at most `K` per unit of length, where
the stepdown is at least what the shape rises within the distance of neighbouring samples (and the rounding): every sampled point of every scan
path of every boundary, from the second one on, is cut to, at exactly the height of the shape there.  `n` is a bound on the number of passes. -/
theorem C148_sampled_partial {sq : ℚ → ℚ} {eng : SurfaceEngine} {k : FaceKernel} {args : SurfaceArgs} {oo : ℚ × ℚ} {io : Option (ℚ × ℚ)}
    {bs : List BoundaryFace} {j : Job} {cs : List Motion} {h : Pt → ℚ} {K r L : ℚ} {n : ℕ} (hd : ∀ ps, eng.drop ps = ps.map h)
    (hK : SlopeUpTo K h) (hK0 : 0 ≤ K) (h0 : ∀ p, h p ≤ 0) (hbot : ∀ p, eng.bottom ≤ h p)
    (hm : Measures64 r eng.norm) (hr0 : 0 ≤ r) (hr : r ≤ 2) (hL : 1 ≤ L) (hclip : ClipsWithin L eng.scan)
    (hpoly : ∀ poly, SurfacePolygon k args oo io bs poly → ∀ p ∈ poly, p.Upto L) (hi : 0 < args.interpolationStep)
    (hiL : args.interpolationStep ≤ L) (hid : IsDouble args.interpolationStep) (htL : |args.topHeight| ≤ L) (hbL : |eng.bottom| ≤ L)
    (hbt : eng.bottom ≤ args.topHeight) (hn1 : 1 ≤ n) (hn2 : n ≤ 2 ^ 49)
    (hs : ∀ s, args.stepdown = some s → s < 0 ∧ -s ≤ L ∧ (args.topHeight - eng.bottom) / -s + 2 ≤ n ∧
      K * (r * args.interpolationStep + L / 10 ^ 13) + passError n (3 * L) ≤ -s)
    (hc : surface3d64 sq eng k args oo io bs j = .ok cs) :
    ∀ poly, SurfacePolygon k args oo io bs poly → ∃ paths, zigzag64 sq eng.scan [poly] args.toolDiameter args.stepover = .ok paths ∧
      ∀ path ∈ paths, ∃ out, interpolateSequence64 eng args.interpolationStep path = .ok out ∧
        RefinesUpTo (L / 10 ^ 13) (r * args.interpolationStep + L / 10 ^ 13) path out ∧ ∀ q ∈ out.tail, ∃ c ∈ cs, CutsTo q (h q) c := by
  intro poly hp
  obtain ⟨part, hpart, hsub⟩ := surface3d64_each hc hp
  obtain ⟨paths, h1, h2⟩ := boundary64_sampled hd hK hK0 h0 hbot hm hr0 hr hL hclip (hpoly poly hp) hi hiL hid htL hbL hbt hn2 hs hn1
    hpart
  refine ⟨paths, h1, fun path hpath => ?_⟩
  obtain ⟨out, h3, h4⟩ := h2 path hpath
  have hdb := (zigzag64_points (P := Pt.Upto L) (bs := [poly]) (fun t s => hclip [poly] t s (by simpa using hpoly poly hp))
    (by simpa using hpoly poly hp) h1 path hpath).2
  refine ⟨out, h3, C130_samples hm hL hr0 hr hi hiL hid (hdb) h3, fun q hq => ?_⟩
  obtain ⟨c, hc, h5⟩ := h4 q hq
  exact ⟨c, hsub c hc, h5⟩

/-- C148 on the machine: the machine that runs the program of any job with such an operation feeds to every sampled point of every scan path, at
the height of the shape there, in the part of that operation. -/
theorem C148_machine_partial {sq : ℚ → ℚ} {eng : SurfaceEngine} {k : FaceKernel} {args : SurfaceArgs} {oo : ℚ × ℚ} {io : Option (ℚ × ℚ)}
    {bs : List BoundaryFace} {h : Pt → ℚ} {K r L : ℚ} {n : ℕ} (hd : ∀ ps, eng.drop ps = ps.map h)
    (hK : SlopeUpTo K h) (hK0 : 0 ≤ K) (hh0 : ∀ p, h p ≤ 0) (hbot : ∀ p, eng.bottom ≤ h p)
    (hm : Measures64 r eng.norm) (hr0 : 0 ≤ r) (hr : r ≤ 2) (hL : 1 ≤ L) (hclip : ClipsWithin L eng.scan)
    (hpoly : ∀ poly, SurfacePolygon k args oo io bs poly → ∀ p ∈ poly, p.Upto L) (hi : 0 < args.interpolationStep)
    (hiL : args.interpolationStep ≤ L) (hid : IsDouble args.interpolationStep) (htL : |args.topHeight| ≤ L) (hbL : |eng.bottom| ≤ L)
    (hbt : eng.bottom ≤ args.topHeight) (hn1 : 1 ≤ n) (hn2 : n ≤ 2 ^ 49)
    (hs : ∀ s, args.stepdown = some s → s < 0 ∧ -s ≤ L ∧ (args.topHeight - eng.bottom) / -s + 2 ≤ n ∧
      K * (r * args.interpolationStep + L / 10 ^ 13) + passError n (3 * L) ≤ -s)
    {j0 j1 j2 jf : Job} {before after : List Request} (m : Machine) (h0 : InitOK j0) (hnum : ∀ v, j0.toolNumber = some v → NumOK v)
    (hok : ChainOK j0 (before ++ surface3dRequest64 sq eng k args oo io bs :: after))
    (h1 : j0.chain before = .ok j1) (h2 : (j1.call (surface3dRequest64 sq eng k args oo io bs)).2 = .ok j2)
    (h3 : j2.chain after = .ok jf) (hend : m.ended = false) (htool : ∀ n, j0.toolNumber = some n → m.tool = some n.value) :
    ∃ t m' pre part post, jf.toGcode = .ok t ∧ runText m t = some (m', pre ++ part ++ post) ∧
      ∀ poly, SurfacePolygon k args oo io bs poly → ∃ paths, zigzag64 sq eng.scan [poly] args.toolDiameter args.stepover = .ok paths ∧
        ∀ path ∈ paths, ∃ out, interpolateSequence64 eng args.interpolationStep path = .ok out ∧
          RefinesUpTo (L / 10 ^ 13) (r * args.interpolationStep + L / 10 ^ 13) path out ∧ ∀ q ∈ out.tail, ∃ e ∈ part, FeedsTo q.x q.y (h q) e := by
  obtain ⟨t, m', pre, part, post, cs, ht, hrun, hgen, hperf, -⟩ := C94_followed m h0 hnum hok h1 h2 h3 hend htool
  have hgen' : surface3d64 sq eng k args oo io bs (j1.updateTool none).2 = .ok cs := hgen
  have main := C148_sampled_partial hd hK hK0 hh0 hbot hm hr0 hr hL hclip hpoly hi hiL hid htL hbL hbt hn1 hn2 hs hgen'
  refine ⟨t, m', pre, part, post, ht, hrun, ?_⟩
  intro poly hp
  obtain ⟨paths, g1, g2⟩ := main poly hp
  refine ⟨paths, g1, fun path hpath => ?_⟩
  obtain ⟨out, g3, g4, g5⟩ := g2 path hpath
  refine ⟨out, g3, g4, fun q hq => ?_⟩
  obtain ⟨c, hc, hl, hf⟩ := g5 q hq
  obtain ⟨e, he, tgt, ctr, hact, hx, hy, hz, -⟩ := forall2_right hperf hc
  refine ⟨e, (List.mem_filter.mp he).1, ctr, ?_⟩
  rw [hact, hl]
  rw [hf] at hx hy hz
  have : tgt = ⟨rnd 3 q.x, rnd 3 q.y, rnd 3 (h q)⟩ := by
    ext1
    · exact hx.1 _ rfl
    · exact hy.1 _ rfl
    · exact hz.1 _ rfl
  rw [this]

/-! ### Examples -/

/-- The ridge with an exact drop cutter. -/
def exactRidge64 : SurfaceEngine := { sideEngine with scan := zigEngine, drop := fun ps => ps.map ridge }

theorem ridge_upto (p : Pt) : ridge p ≤ 0 := by
  unfold ridge
  have := abs_nonneg (p.x - 4)
  exact max_le (by norm_num) (by linarith)

theorem exactRidge_args : IsDouble hillArgs.interpolationStep := ⟨1, 0, by norm_num, by norm_num, by norm_num [hillArgs]⟩

/-- The hypotheses of C148: the ridge has slope 1, samples are 1 apart (lengths measured up to 3/2), the stepdown is 2. -/
example : (∀ ps, exactRidge64.drop ps = ps.map ridge) ∧ SlopeUpTo 1 ridge ∧ (∀ p, ridge p ≤ 0) ∧ (∀ p, exactRidge64.bottom ≤ ridge p) ∧
    Measures64 (3 / 2) exactRidge64.norm ∧ ClipsWithin 10 exactRidge64.scan ∧
    (∀ poly, SurfacePolygon idleKernel hillArgs (-1, 0) (some (1, 0)) [hillFace] poly → ∀ p ∈ poly, p.Upto 10) ∧
    IsDouble hillArgs.interpolationStep ∧
    (∀ s, hillArgs.stepdown = some s → s < 0 ∧ -s ≤ 10 ∧ (hillArgs.topHeight - exactRidge64.bottom) / -s + 2 ≤ ((5 : ℕ) : ℚ) ∧
      1 * (3 / 2 * hillArgs.interpolationStep + 10 / 10 ^ 13) + passError 5 (3 * 10) ≤ -s) ∧
    ∃ j2, ChainOK demoInit ([] ++ surface3dRequest64 ridgeSq exactRidge64 idleKernel hillArgs (-1, 0) (some (1, 0)) [hillFace] :: []) ∧
      (demoInit.call (surface3dRequest64 ridgeSq exactRidge64 idleKernel hillArgs (-1, 0) (some (1, 0)) [hillFace])).2 = .ok j2 := by
  obtain ⟨cs, -, hr, hc⟩ := call_good (j := demoInit)
    (r := surface3dRequest64 ridgeSq exactRidge64 idleKernel hillArgs (-1, 0) (some (1, 0)) [hillFace]) rfl rfl (by unfold SafeName; decide)
    (by decide +kernel)
  refine ⟨fun _ => rfl, ridge_slope, ridge_upto, fun p => le_max_left _ _, side_measures, zig_within, ridge_polygon, exactRidge_args, ?_,
    _, ⟨hr, fun _ _ => trivial⟩, hc⟩
  intro s h
  have : s = -2 := by
    have h' : (some (-2) : Option ℚ) = some s := h
    cases h'; rfl
  subst this
  refine ⟨by norm_num, by norm_num, ?_, ?_⟩
  · have e1 : hillArgs.topHeight = 0 := rfl
    have e2 : exactRidge64.bottom = -5 := rfl
    rw [e1, e2]; norm_num
  · have e1 : hillArgs.interpolationStep = 1 := rfl
    rw [e1]; unfold passError; norm_num

/-- The steep hill with lengths measured by the longer side. -/
def hillEngine64 : SurfaceEngine := { sideEngine with scan := zigEngine, drop := fun ps => ps.map hill }

/-- C148 fails behind a steep step, as C79 does: the first point after it is never cut to, at any height. -/
theorem C148_violated : ∃ (eng : SurfaceEngine) (args : SurfaceArgs) (poly : List Pt) (h : Pt → ℚ) (cs : List Motion)
    (path out : List Pt) (q : Pt), (∀ ps, eng.drop ps = ps.map h) ∧ surfaceBoundary64 ridgeSq eng args demoInit poly = .ok cs ∧
      zigzag64 ridgeSq eng.scan [poly] args.toolDiameter args.stepover = .ok [path] ∧
      interpolateSequence64 eng args.interpolationStep path = .ok out ∧ q ∈ out.tail ∧ h q < 0 ∧ ∀ c ∈ cs, ∀ z, ¬ CutsTo q z c := by
  have h : (match surfaceBoundary64 ridgeSq hillEngine64 hillArgs demoInit zigPoly,
        zigzag64 ridgeSq hillEngine64.scan [zigPoly] hillArgs.toolDiameter hillArgs.stepover with
      | .ok cs, .ok [path] =>
          (match interpolateSequence64 hillEngine64 hillArgs.interpolationStep path with
            | .ok out => decide ((⟨7/2, 1⟩ : Pt) ∈ out.tail ∧
              ∀ c ∈ cs, ¬ (c.kind.mot = .linear ∧ c.fin.x = some (7/2) ∧ c.fin.y = some 1))
            | .error _ => false)
      | _, _ => false) = true := by decide +kernel
  split at h
  · rename_i cs path h1 h2
    split at h
    · rename_i out h3
      obtain ⟨h4, h5⟩ := of_decide_eq_true h
      refine ⟨hillEngine64, hillArgs, zigPoly, hill, cs, path, out, ⟨7/2, 1⟩, fun _ => rfl, h1, h2, h3, h4,
        by decide +kernel, ?_⟩
      rintro c hc z ⟨hk, hf⟩
      exact h5 c hc ⟨hk, by rw [hf]; rfl, by rw [hf]; rfl⟩
    · cases h
  · cases h

/-- A case of `C148_first`. -/
example : ∃ out, interpolateSequence64 exactRidge64 1 [⟨1 / 2, 1⟩, ⟨5, 1⟩] = .ok out ∧ (⟨1 / 2, 1⟩ : Pt) ∈ out.tail := by
  have h : (match interpolateSequence64 exactRidge64 1 [⟨1 / 2, 1⟩, ⟨5, 1⟩] with | .ok _ => true | .error _ => false) = true := by decide +kernel
  cases hr : interpolateSequence64 exactRidge64 1 [⟨1 / 2, 1⟩, ⟨5, 1⟩] with
  | error e => rw [hr] at h; cases h
  | ok out =>
    have e : exactRidge64.norm ⟨b64 ((5 : ℚ) - 1 / 2), b64 ((1 : ℚ) - 1)⟩ = 9 / 2 := by decide +kernel
    refine ⟨out, rfl, C148_first hr (by norm_num) ⟨1, -1, by norm_num, by norm_num, by norm_num⟩ ⟨1, 0, by norm_num, by norm_num, by norm_num⟩ ?_ ?_⟩
    · rw [e]; exact ⟨9, -1, by norm_num, by norm_num, by norm_num⟩
    · rw [e, one_mul]
      exact le_trans (zpow_le_zpow_right₀ (by norm_num) (by norm_num : (-1000 : ℤ) ≤ 0)) (by norm_num)

end CQ
