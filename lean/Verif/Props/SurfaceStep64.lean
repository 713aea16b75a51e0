import Verif.Props.SurfaceStep
import Verif.Props.Surface64
import Verif.Props.Binary64
import Verif.Props.Drill64

/-! # Property C147: 3D surfacing in floating point never cuts more than a stepdown at once -/

namespace CQ

/-! ### The depths never rise, except to the lowest point -/

theorem b64_mono' {x y : ℚ} (h : x ≤ y) : b64 x ≤ b64 y := by
  by_contra hc
  rw [not_le] at hc
  have h1 := b64_nearest x (b64_isDouble y)
  have h2 := b64_nearest y (b64_isDouble x)
  have hne : x ≠ y := by rintro rfl; exact lt_irrefl _ hc
  have hlt : x < y := lt_of_le_of_ne h hne
  by_cases hv : x ≤ b64 y
  · exact absurd (b64_le (b64_isDouble y) hv) (not_le.mpr hc)
  · rw [not_le] at hv
    rw [abs_of_neg (show b64 y - x < 0 by linarith)] at h1
    rw [abs_of_neg (show b64 y - y < 0 by linarith)] at h2
    have h1' := (abs_le.mp h1).2
    rcases le_abs.mp h2 with h2 | h2
    · linarith
    · linarith

theorem isDouble_twice {x : ℚ} (h : IsDouble x) : IsDouble (2 * x) := by
  obtain ⟨m, e, h1, h2, rfl⟩ := h
  refine ⟨m, e + 1, h1, by omega, ?_⟩
  rw [zpow_add₀ (by norm_num)]
  ring

/-- The values of `arange` downwards never rise, whatever the rounding. -/
theorem arange64_falls {start stop step : ℚ} (hd : IsDouble start) (hs : step ≤ 0) {i k : ℕ} {x y : ℚ} (hik : i ≤ k)
    (hx : (arange64 start stop step)[i]? = some x) (hy : (arange64 start stop step)[k]? = some y) : y ≤ x := by
  unfold arange64 at hx hy
  rw [List.getElem?_map] at hx hy
  obtain ⟨i', hi, rfl⟩ := Option.map_eq_some_iff.mp hx
  obtain ⟨k', hk, rfl⟩ := Option.map_eq_some_iff.mp hy
  rw [List.getElem?_range (by
    obtain ⟨h, -⟩ := List.getElem?_eq_some_iff.mp hi
    simpa using h), Option.some.injEq] at hi
  rw [List.getElem?_range (by
    obtain ⟨h, -⟩ := List.getElem?_eq_some_iff.mp hk
    simpa using h), Option.some.injEq] at hk
  subst hi hk
  have h2 : b64 (start + step) ≤ start := b64_le hd (by linarith)
  have herr := (abs_le.mp (b64_sub_err (b64_isDouble (start + step)) hd)).2
  have hd2 : IsDouble (b64 (start + step)) := b64_isDouble _
  generalize b64 (start + step) = second at *
  rw [abs_of_nonpos (by linarith : second - start ≤ 0)] at herr
  have h3 : b64 (second - start) ≤ 0 := b64_le isDouble_zero (by linarith)
  have h4 : 2 * b64 (second - start) ≤ second - start := by
    norm_num at herr ⊢
    linarith
  have hdd : IsDouble (2 * b64 (second - start)) := isDouble_twice (b64_isDouble _)
  generalize b64 (second - start) = delta at *
  have hall : ∀ n : ℕ, b64 (start + b64 (n * delta)) ≤ start := by
    intro n
    have : (n : ℚ) * delta ≤ 0 := mul_nonpos_of_nonneg_of_nonpos (Nat.cast_nonneg _) h3
    have := b64_le isDouble_zero this
    exact b64_le hd (by linarith)
  have hmul : ∀ n m : ℕ, n ≤ m → b64 (start + b64 (m * delta)) ≤ b64 (start + b64 (n * delta)) := by
    intro n m hnm
    have hq : (n : ℚ) ≤ m := by exact_mod_cast hnm
    have : (m : ℚ) * delta ≤ n * delta := mul_le_mul_of_nonpos_right hq h3
    have := b64_mono' this
    exact b64_mono' (by linarith)
  by_cases hi0 : i = 0
  · subst hi0
    simp only [if_true]
    split_ifs
    · exact le_refl _
    · exact h2
    · exact hall k
  · by_cases hk1 : k = 1
    · have : i = 1 := by omega
      subst this hk1
      exact le_refl _
    · have hk0 : k ≠ 0 := by omega
      simp only [if_neg hi0, if_neg hk0, if_neg hk1]
      split_ifs with hi1
      · have hk2 : (2 : ℚ) ≤ k := by
          have : 2 ≤ k := by omega
          exact_mod_cast this
        have h5 : b64 (k * delta) ≤ 2 * delta := b64_le hdd (mul_le_mul_of_nonpos_right hk2 h3)
        exact b64_le hd2 (by linarith)
      · exact hmul i k hik

/-- All depths but the last one are those of `arange`. -/
theorem depths64_falls {s top bottom : ℚ} {depths : List ℚ} (hs : s ≤ 0) (h : surfaceDepths64 (some s) top bottom = .ok depths) {k : ℕ} {x y : ℚ}
    (hk : k + 2 < depths.length) (hx : depths[k]? = some x) (hy : depths[k + 1]? = some y) : y ≤ x := by
  unfold surfaceDepths64 at h
  simp only at h
  split at h
  · cases h; simp at hk
  · split at h
    · cases h
    · split at h
      · cases h
        rw [List.length_append, List.length_singleton] at hk
        rw [List.getElem?_append_left (by omega)] at hx hy
        exact arange64_falls (b64_isDouble _) hs (Nat.le_succ k) hx hy
      · cases h
        exact arange64_falls (b64_isDouble _) hs (Nat.le_succ k) hx hy

/-! ### The passes -/

/-- Passes from which at most `g` is taken at once. -/
theorem passes_step {j : Job} {depths : List ℚ} {seqs : List (List Vec)} {top g : ℚ} (hg : 0 ≤ g) (htop : top ≤ 0)
    (hsafe : 0 ≤ j.opSafeHeight) (hlt : ∀ x ∈ depths, x ≤ top)
    (hnext : ∀ (k : ℕ) (x y : ℚ), depths[k]? = some x → depths[k + 1]? = some y → x ≤ y + g)
    (hfirst : ∀ x, depths[0]? = some x → top ≤ x + g)
    (hfall : ∀ (k : ℕ) (x y : ℚ), k + 2 < depths.length → depths[k]? = some x → depths[k + 1]? = some y → y ≤ x) :
    TakesAtMost top g (passesMoves j depths seqs 0 {} depths) := by
  obtain ⟨passes, e, hl, hp⟩ := passesMoves_split (j := j) (depths := depths) (seqs := seqs) depths 0 {}
  have hlim0 : ∀ i, passLimit depths i ≤ 0 := by
    intro i
    unfold passLimit
    split
    · rw [List.getD_eq_getElem?_getD]
      cases hx : depths[i - 2]? with
      | none => simp
      | some x => exact (hlt x (List.mem_of_getElem? hx)).trans htop
    · exact le_refl _
  have hlim : ∀ k, k + 1 < depths.length → passLimit depths (k + 1) ≤ passLimit depths k := by
    intro k hk
    by_cases hk1 : 1 < k
    · have e1 : passLimit depths (k + 1) = depths[k - 1] := by
        unfold passLimit
        rw [if_pos (by omega), List.getD_eq_getElem?_getD, show k + 1 - 2 = k - 1 by omega, List.getElem?_eq_getElem (by omega)]
        rfl
      have e2 : passLimit depths k = depths[k - 2] := by
        unfold passLimit
        rw [if_pos hk1, List.getD_eq_getElem?_getD, List.getElem?_eq_getElem (by omega)]
        rfl
      rw [e1, e2]
      refine hfall (k - 2) _ _ (by omega) (List.getElem?_eq_getElem (by omega)) ?_
      rw [show k - 2 + 1 = k - 1 by omega, List.getElem?_eq_getElem (by omega)]
    · have : passLimit depths k = 0 := by unfold passLimit; rw [if_neg hk1]
      rw [this]
      exact hlim0 _
  rw [e]
  intro pre c post hsplit hk
  obtain ⟨A, l, B, u, v, hpass, rfl, rfl⟩ := flatten_at hsplit
  have hlen : A.length < depths.length := by rw [← hl, hpass]; simp
  have hget : passes[A.length]? = some (u ++ c :: v) := by rw [hpass]; simp
  obtain ⟨d, hdk⟩ : ∃ d, depths[A.length]? = some d := ⟨_, List.getElem?_eq_getElem hlen⟩
  obtain ⟨pos, hcs⟩ := hp A.length d _ hdk hget
  have hcm : c ∈ piecesMoves j d pos (chopSequences seqs (passLimit depths (0 + A.length))) := by
    rw [← hcs]; simp
  obtain ⟨piece, hpiece, pos', hcm⟩ := mem_piecesMoves' hcm
  obtain ⟨hlin, a, b, ha, hb, hab⟩ := pieceMoves_cuts hcm hk
  refine ⟨hlin, a, b, ha, hb, ?_⟩
  rcases Nat.eq_zero_or_pos A.length with h0 | h0
  · left
    rw [h0] at hdk
    have hdt := hfirst d hdk
    obtain ⟨u', p, q, v', -, rfl, rfl⟩ := hab
    have hm := fun z : ℚ => le_max_left d z
    constructor
    · simp only
      split
      · linarith
      · linarith [hm p.z]
    · simp only
      linarith [hm q.z]
  · right
    obtain ⟨k, hkA⟩ : ∃ k, A.length = k + 1 := ⟨A.length - 1, by omega⟩
    rw [hkA] at hlen hdk hpiece
    obtain ⟨d', hdk'⟩ : ∃ d', depths[k]? = some d' := ⟨_, List.getElem?_eq_getElem (by omega)⟩
    have hgetA : passes[k]? = A[k]? := by rw [hpass, List.getElem?_append_left (by omega)]
    obtain ⟨m, hm⟩ : ∃ m, A[k]? = some m := ⟨_, List.getElem?_eq_getElem (by omega)⟩
    obtain ⟨pos2, hcs2⟩ := hp k d' m hdk' (by rw [hgetA, hm])
    obtain ⟨seq, hseq, hch⟩ := List.mem_flatMap.mp hpiece
    obtain ⟨piece', hpiece', hin⟩ := chopFrom_infix (cur := []) (cur' := []) (hlim k hlen) (List.suffix_refl _)
      (by simpa using hch)
    have hz : ∀ p ∈ piece, p.z ≤ 0 := by
      intro p hp
      exact ((mem_chopFrom (by simp) hch).2 p hp).2.trans (hlim0 _)
    obtain ⟨a', b', hab', ho, ho'⟩ := cutBetween_infix hin (hnext k d' d hdk' hdk) hg hz
      ((hlt d' (List.mem_of_getElem? hdk')).trans htop) hsafe hab
    obtain ⟨c', hc', h1, h2, h3⟩ := piecesMoves_has (pos := pos2) hab' (pieces := chopSequences _ (passLimit depths (0 + k)))
      (List.mem_flatMap.mpr ⟨seq, hseq, by simpa using hpiece'⟩)
    refine ⟨c', List.mem_append_left _ (List.mem_flatten.mpr ⟨m, List.mem_of_getElem? hm, ?_⟩), h1, a', b', h2, h3, ho, ho'⟩
    rw [hcs2]
    exact hc'

/-- Neighbours in a chain. -/
theorem isChain_at {α} {R : α → α → Prop} {a : α} {l : List α} (h : List.IsChain R (a :: l)) :
    (∀ x, l[0]? = some x → R a x) ∧ ∀ (k : ℕ) (x y : α), l[k]? = some x → l[k + 1]? = some y → R x y := by
  constructor
  · intro x hx
    cases l with
    | nil => simp at hx
    | cons y ys =>
      simp only [List.getElem?_cons_zero, Option.some.injEq] at hx
      subst hx
      exact (List.isChain_cons_cons.mp h).1
  · intro k x y hx hy
    have h1 := (List.isChain_cons.mp h).2
    rw [List.isChain_iff_getElem] at h1
    obtain ⟨hk, rfl⟩ := List.getElem?_eq_some_iff.mp hy
    obtain ⟨hk', rfl⟩ := List.getElem?_eq_some_iff.mp hx
    exact h1 k hk

/-- C147.  With a stepdown `s` (given as `-s`), a top height that is a double and not above the job plane, and heights up to `L`: a 3D surfacing
computed in floating point never cuts more than `s` at once, up to rounding.  `n` is a bound on the number of passes. -/
theorem C147_step_partial {sq : ℚ → ℚ} {eng : SurfaceEngine} {k : FaceKernel} {args : SurfaceArgs} {oo : ℚ × ℚ} {io : Option (ℚ × ℚ)}
    {bs : List BoundaryFace} {j : Job} {cs : List Motion} {h : Pt → ℚ} {s L : ℚ} {n : ℕ} (hd : ∀ ps, eng.drop ps = ps.map h)
    (hstep : args.stepdown = some (-s)) (hs : 0 < s) (hL : 1 ≤ L) (hsL : s ≤ L) (htL : |args.topHeight| ≤ L) (hbL : |eng.bottom| ≤ L)
    (htd : IsDouble args.topHeight) (htop : args.topHeight ≤ 0) (hbot : eng.bottom ≤ args.topHeight)
    (hn : (args.topHeight - eng.bottom) / s + 2 ≤ n) (hn2 : n ≤ 2 ^ 49) (hfine : passError 0 (3 * L) ≤ s) (hsafe : 0 ≤ j.opSafeHeight)
    (hc : surface3d64 sq eng k args oo io bs j = .ok cs) : TakesAtMost args.topHeight (s + passError n (3 * L)) cs := by
  obtain ⟨css, rfl, hb⟩ := surface3d64_ok hc
  refine takesAtMost_flatten (fun cs hcs => ?_)
  obtain ⟨poly, -, hpoly⟩ := hb cs hcs
  obtain ⟨paths, seqs, depths, -, h2, h3, rfl⟩ := surfaceBoundary64_ok hd hpoly
  have h3' := h3
  rw [hstep] at h3
  have hlt := depths64_le h3' htd (depths64_negative h3' htd hbot) hbot
  obtain ⟨-, hlen, hall⟩ := C98_passes_partial hs hL htL hbL hsL hbot h3
  have hle : depths.length ≤ n := by
    have h4 : ((depths.length : ℚ) - 1) * s ≤ (args.topHeight - eng.bottom) / s * s + 1 * s := by
      rw [div_mul_cancel₀ _ hs.ne', one_mul]; linarith
    rw [← add_mul] at h4
    have h5 := le_of_mul_le_mul_right h4 hs
    have : (depths.length : ℚ) ≤ n := by linarith
    exact_mod_cast this
  obtain ⟨hchain, -⟩ := hall (by omega)
  have hmono : passError depths.length (3 * L) ≤ passError n (3 * L) := by
    have : (depths.length : ℚ) ≤ n := by exact_mod_cast hle
    have hμ := two_zpow_pos (-52)
    unfold passError
    apply mul_le_mul_of_nonneg_right _ (by linarith)
    apply mul_le_mul_of_nonneg_right _ hμ.le
    linarith
  have hpos : 0 ≤ passError n (3 * L) := by
    have hμ := two_zpow_pos (-52)
    unfold passError
    positivity
  obtain ⟨hfirst, hnext⟩ := isChain_at hchain
  refine passes_step (by linarith) htop hsafe hlt (fun k x y hx hy => ?_) (fun x hx => ?_)
    (fun k x y hk hx hy => depths64_falls (by linarith) h3 hk hx hy)
  · linarith [(hnext k x y hx hy).2]
  · linarith [(hfirst x hx).2]

/-- C147 on the machine.  In the program of any job with such an operation in it, the machine never takes more than `s` at once in that operation,
up to the rounding in the operation and of the printed coordinates. -/
theorem C147_machine_partial {sq : ℚ → ℚ} {eng : SurfaceEngine} {k : FaceKernel} {args : SurfaceArgs} {oo : ℚ × ℚ} {io : Option (ℚ × ℚ)}
    {bs : List BoundaryFace} {h : Pt → ℚ} {s L : ℚ} {n : ℕ} (hd : ∀ ps, eng.drop ps = ps.map h)
    (hstep : args.stepdown = some (-s)) (hs : 0 < s) (hL : 1 ≤ L) (hsL : s ≤ L) (htL : |args.topHeight| ≤ L) (hbL : |eng.bottom| ≤ L)
    (htd : IsDouble args.topHeight) (htop : args.topHeight ≤ 0) (hbot : eng.bottom ≤ args.topHeight)
    (hn : (args.topHeight - eng.bottom) / s + 2 ≤ n) (hn2 : n ≤ 2 ^ 49) (hfine : passError 0 (3 * L) ≤ s)
    {j0 j1 j2 jf : Job} {before after : List Request} (m : Machine) (h0 : InitOK j0) (hsafe : 0 ≤ j0.opSafeHeight)
    (hnum : ∀ v, j0.toolNumber = some v → NumOK v)
    (hok : ChainOK j0 (before ++ surface3dRequest64 sq eng k args oo io bs :: after))
    (h1 : j0.chain before = .ok j1) (h2 : (j1.call (surface3dRequest64 sq eng k args oo io bs)).2 = .ok j2)
    (h3 : j2.chain after = .ok jf) (hend : m.ended = false) (htool : ∀ n, j0.toolNumber = some n → m.tool = some n.value) :
    ∃ t m' pre part post cs, jf.toGcode = .ok t ∧ runText m t = some (m', pre ++ part ++ post) ∧
      surface3d64 sq eng k args oo io bs (j1.updateTool none).2 = .ok cs ∧ (part.filter isMove).length = cs.length ∧
      FeedsAtMost args.topHeight (s + passError n (3 * L) + 1 / 1000) part := by
  obtain ⟨t, m', pre, part, post, cs, ht, hrun, hgen, hperf, hfol, -⟩ := C94_followed m h0 hnum hok h1 h2 h3 hend htool
  have hbase : SameBase j0 (j1.updateTool none).2 := updateTool_base (chain_base (show SameBase j0 j0 from rfl) h1) _
  have hsafe' : j0.opSafeHeight = (j1.updateTool none).2.opSafeHeight := by rw [hbase]
  have hgen' : surface3d64 sq eng k args oo io bs (j1.updateTool none).2 = .ok cs := hgen
  refine ⟨t, m', pre, part, post, cs, ht, hrun, hgen', hperf.length_eq, ?_⟩
  refine feedsAtMost_follows (C147_step_partial hd hstep hs hL hsL htL hbL htd htop hbot hn hn2 hfine (by rw [← hsafe']; exact hsafe) hgen')
    (hfol ?_)
  obtain ⟨css, rfl, hb⟩ := surface3d64_ok hgen'
  refine tracks_flatten (fun a ha => ?_) _
  obtain ⟨poly, -, hpoly⟩ := hb a ha
  obtain ⟨paths, seqs, depths, -, -, -, rfl⟩ := surfaceBoundary64_ok hd hpoly
  exact tracks_connected passesMoves_connected

/-- C147 in numbers: with heights up to a metre and a stepdown of at least a hundredth of a millimetre, the machine never takes more at once than
the stepdown and 1.002 thousandths of a millimetre. -/
theorem C147_millimetres_partial {sq : ℚ → ℚ} {eng : SurfaceEngine} {k : FaceKernel} {args : SurfaceArgs} {oo : ℚ × ℚ} {io : Option (ℚ × ℚ)}
    {bs : List BoundaryFace} {h : Pt → ℚ} {s : ℚ} (hd : ∀ ps, eng.drop ps = ps.map h)
    (hstep : args.stepdown = some (-s)) (hs : 1 / 100 ≤ s) (hsL : s ≤ 1000) (htL : |args.topHeight| ≤ 1000) (hbL : |eng.bottom| ≤ 1000)
    (htd : IsDouble args.topHeight) (htop : args.topHeight ≤ 0) (hbot : eng.bottom ≤ args.topHeight)
    {j0 j1 j2 jf : Job} {before after : List Request} (m : Machine) (h0 : InitOK j0) (hsafe : 0 ≤ j0.opSafeHeight)
    (hnum : ∀ v, j0.toolNumber = some v → NumOK v)
    (hok : ChainOK j0 (before ++ surface3dRequest64 sq eng k args oo io bs :: after))
    (h1 : j0.chain before = .ok j1) (h2 : (j1.call (surface3dRequest64 sq eng k args oo io bs)).2 = .ok j2)
    (h3 : j2.chain after = .ok jf) (hend : m.ended = false) (htool : ∀ n, j0.toolNumber = some n → m.tool = some n.value) :
    ∃ t m' pre part post cs, jf.toGcode = .ok t ∧ runText m t = some (m', pre ++ part ++ post) ∧
      surface3d64 sq eng k args oo io bs (j1.updateTool none).2 = .ok cs ∧ (part.filter isMove).length = cs.length ∧
      FeedsAtMost args.topHeight (s + 1002 / 1000000) part := by
  have hs0 : 0 < s := by linarith
  have hcount : (args.topHeight - eng.bottom) / s + 2 ≤ ((200002 : ℕ) : ℚ) := by
    have : (args.topHeight - eng.bottom) / s ≤ 200000 := by
      rw [div_le_iff₀ hs0]
      linarith [(abs_le.mp hbL).1]
    push_cast
    linarith
  obtain ⟨t, m', pre, part, post, cs, g1, g2, g3, g4, g5⟩ := C147_machine_partial (L := 1000) (n := 200002) hd hstep hs0 (by norm_num) hsL htL hbL
    htd htop hbot hcount (by norm_num) (le_trans (by unfold passError; norm_num) hs) m h0 hsafe hnum hok h1 h2 h3 hend htool
  refine ⟨t, m', pre, part, post, cs, g1, g2, g3, g4, ?_⟩
  have hsmall : passError 200002 (3 * 1000) ≤ 2 / 1000000 := by unfold passError; norm_num
  intro pre e post he hf
  obtain ⟨a, b, hab, hh⟩ := g5 pre e post he hf
  refine ⟨a, b, hab, ?_⟩
  rcases hh with ⟨k1, k2⟩ | ⟨e', he', a', b', k1, k2, k3⟩
  · left; constructor <;> linarith
  · right
    exact ⟨e', he', a', b', k1, ⟨k2.1, k2.2.1, by linarith [k2.2.2]⟩, ⟨k3.1, k3.2.1, by linarith [k3.2.2]⟩⟩

/-! ### Examples -/

/-- Stepping down by the double for 0.3. -/
def thirdArgs : SurfaceArgs := { hillArgs with stepdown := some (-b64 (3 / 10)) }

/-- The hypotheses of C147, with cuts in 17 passes from -0.3 to -5 and the engines and the job of C146. -/
example : ∃ j2, thirdArgs.stepdown = some (-b64 (3 / 10)) ∧ 1 / 100 ≤ b64 (3 / 10) ∧ b64 (3 / 10) ≤ 1000 ∧ |thirdArgs.topHeight| ≤ 1000 ∧
    |ridgeEngine64.bottom| ≤ 1000 ∧ IsDouble thirdArgs.topHeight ∧ thirdArgs.topHeight ≤ 0 ∧ ridgeEngine64.bottom ≤ thirdArgs.topHeight ∧
    InitOK demoInit ∧ 0 ≤ demoInit.opSafeHeight ∧
    ChainOK demoInit ([] ++ surface3dRequest64 ridgeSq ridgeEngine64 idleKernel thirdArgs (-1, 0) (some (1, 0)) [hillFace] :: []) ∧
    demoInit.chain [] = .ok demoInit ∧
    (demoInit.call (surface3dRequest64 ridgeSq ridgeEngine64 idleKernel thirdArgs (-1, 0) (some (1, 0)) [hillFace])).2 = .ok j2 := by
  obtain ⟨cs, -, hr, hc⟩ := call_good (j := demoInit)
    (r := surface3dRequest64 ridgeSq ridgeEngine64 idleKernel thirdArgs (-1, 0) (some (1, 0)) [hillFace]) rfl rfl (by unfold SafeName; decide)
    (by decide +kernel)
  exact ⟨_, rfl, by decide +kernel, by decide +kernel, by decide +kernel, by decide +kernel, isDouble_zero, by decide +kernel,
    by decide +kernel, demo_reach.1, by decide +kernel, ⟨hr, fun _ _ => trivial⟩, rfl, hc⟩

/-- The step with lengths measured by the longer side. -/
def stepEngine64 : SurfaceEngine := { sideEngine with scan := zigEngine, drop := fun ps => ps.map step32 }

/-- C147 fails for a top height above the job plane, as C120 does. -/
theorem C147_violated : ∃ (eng : SurfaceEngine) (args : SurfaceArgs) (b : BoundaryFace) (h : Pt → ℚ) (cs : List Motion),
    (∀ ps, eng.drop ps = ps.map h) ∧ args.stepdown = some (-1) ∧ args.topHeight = 4 ∧ 0 ≤ demoInit.opSafeHeight ∧
      surface3d64 ridgeSq eng idleKernel args (-1, 0) (some (1, 0)) [b] demoInit = .ok cs ∧ ¬ TakesAtMost 4 2 cs ∧
      ∃ pre c post, cs = pre ++ c :: post ∧ c.kind.mot = .linear ∧ c.fin.z = some (3 / 2) ∧
        ∀ c' ∈ pre, c'.kind.mot = .linear → ¬ (c'.fin.x = c.fin.x ∧ c'.fin.y = c.fin.y) := by
  have h : (match surface3d64 ridgeSq stepEngine64 idleKernel { hillArgs with topHeight := 4, stepdown := some (-1) } (-1, 0) (some (1, 0))
        [hillFace] demoInit with
      | .ok cs =>
        (match firstTo [] cs with
        | some (pre, c, _) => decide (∀ c' ∈ pre, c'.kind.mot = .linear → ¬ (c'.fin.x = c.fin.x ∧ c'.fin.y = c.fin.y))
        | none => false)
      | .error _ => false) = true := by decide +kernel
  split at h
  · rename_i cs hr
    split at h
    · rename_i pre c post hf
      obtain ⟨h1, h2, h3⟩ := firstTo_split hf
      rw [List.nil_append] at h1
      have hno := of_decide_eq_true h
      refine ⟨stepEngine64, _, hillFace, step32, cs, fun _ => rfl, rfl, rfl, by decide +kernel, hr, ?_, pre, c, post, h1, h2, h3, hno⟩
      intro ht
      obtain ⟨-, a, b, -, hb, h4⟩ := ht pre c post h1 (by rw [h2]; decide)
      rcases h4 with ⟨-, h4⟩ | ⟨c', hc', hl, a', b', -, hb', -, h5, h6, -⟩
      · rw [hb] at h3
        simp only [AddrVec.fromVec, Option.some.injEq] at h3
        rw [h3] at h4
        norm_num at h4
      · refine hno c' hc' hl ?_
        rw [hb, hb']
        simp only [AddrVec.fromVec, h5, h6, and_self]
    · cases h
  · cases h

end CQ
