import Verif.Spec.Profile64
import Verif.Model.Profile64
import Verif.Props.Binary64
import Verif.Props.ProfilePath
import Verif.Proofs.Repr

/-! # C132: the passes of a profile in floating point -/

namespace CQ

theorem milli_below : b64 (-1 / 1000) < -1 / 1000 := by decide +kernel

theorem milli_near : -1 / 1000 - 2 ^ (-52 : ℤ) ≤ b64 (-1 / 1000) := by
  have h : (-1 / 1000 - 1 / 4503599627370496 : ℚ) ≤ b64 (-1 / 1000) := by decide +kernel
  rwa [show (2 : ℚ) ^ (-52 : ℤ) = 1 / 4503599627370496 from by norm_num]

/-- The heights of the passes. -/
theorem passHeight_near {s L : ℚ} (hs : 0 < s) (hL : 1 ≤ L) (hsL : 101 * s ≤ L) {k : ℕ} (hk : k ≤ 101) :
    |b64 (s * k) - k * s| ≤ 2 ^ (-52 : ℤ) * L := by
  have hk' : (k : ℚ) ≤ 101 := by exact_mod_cast hk
  have h0 : (0 : ℚ) ≤ k := by positivity
  rw [mul_comm (k : ℚ) s]
  refine b64_err_mu ?_ hL
  rw [abs_of_nonneg (by positivity)]
  nlinarith

/-- Where the kernel finds the passes. -/
theorem passBox_near {cad : Cad} {τ s L : ℚ} {base : List Edge} (hb : BoxMovesWithin τ (2 * L) cad base) (hs : 0 < s)
    (hL : 1 ≤ L) (hsL : 101 * s ≤ L) {k : ℕ} (hk : k ≤ 101) :
    |cad.zmin (base.map (Edge.up (b64 (s * k)))) - (cad.zmin base + k * s)| ≤ τ + 2 ^ (-52 : ℤ) * L := by
  have h2 := abs_le.mp (passHeight_near hs hL hsL hk)
  have hk' : (k : ℚ) * s ≤ 101 * s := mul_le_mul_of_nonneg_right (by exact_mod_cast hk) hs.le
  have hm : (2 : ℚ) ^ (-52 : ℤ) * L ≤ 1 * L := mul_le_mul_of_nonneg_right (by norm_num) (by linarith)
  have h0 : 0 ≤ b64 (s * k) := le_b64 isDouble_zero (by positivity)
  have h1 := abs_le.mp (hb _ _ h0 (by linarith [h2.2]) (raised_up (b64 (s * k)) base))
  rw [abs_le]
  constructor <;> linarith [h1.1, h1.2, h2.1, h2.2]

/-- The loop appends the raised copies number `i + 1` to `n`, where `n` is right up to `tol` at the surface. -/
theorem stepLayers64_spec {cad : Cad} {top : Frame} {τ s L tol : ℚ} {base : List Edge}
    (hb : BoxMovesWithin τ (2 * L) cad base) (hk : KeepsBelow cad top) (hs : 0 < s) (hL : 1 ≤ L) (hsL : 101 * s ≤ L) (ht : τ + 2 * (2 ^ (-52 : ℤ) * L) ≤ tol)
    (rounds i : ℕ) (hr : i + rounds ≤ 101) :
    (cad.zmin base + (i + rounds : ℕ) * s < -1 / 1000 - tol → stepLayers64 cad top base s rounds i = .error .runtimeError) ∧
    (0 < rounds → -1 / 1000 + tol ≤ cad.zmin base + (i + rounds : ℕ) * s → ∃ m ls, stepLayers64 cad top base s rounds i = .ok ls ∧
      m < rounds ∧ ls = (List.range' (i + 1) m).map (fun k : ℕ => base.map (Edge.up (b64 (s * k)))) ∧
      (∀ k : ℕ, i < k → k ≤ i + m → cad.zmin base + k * s < -1 / 1000 + tol) ∧
      -1 / 1000 - tol ≤ cad.zmin base + (i + m + 1 : ℕ) * s) := by
  have hμ : (0 : ℚ) < 2 ^ (-52 : ℤ) * L := by
    have := two_zpow_pos (-52)
    positivity
  have hc1 := milli_below
  have hc2 : -1 / 1000 - 2 ^ (-52 : ℤ) * L ≤ b64 (-1 / 1000) := by
    have h1 := milli_near
    have h2 := two_zpow_pos (-52)
    have : (2 : ℚ) ^ (-52 : ℤ) * 1 ≤ 2 ^ (-52 : ℤ) * L := mul_le_mul_of_nonneg_left hL h2.le
    linarith
  have hbox : ∀ {k : ℕ}, k ≤ 101 → _ := fun {k} hk' => passBox_near hb hs hL hsL (k := k) hk'
  generalize (2 : ℚ) ^ (-52 : ℤ) * L = ε at *
  induction rounds generalizing i with
  | zero => exact ⟨fun _ => rfl, fun h => absurd h (lt_irrefl 0)⟩
  | succ r ih =>
    have hz := abs_le.mp (hbox (k := i + 1) (by omega))
    have he : s * ((i + 1 : ℕ) : ℚ) = s * (i + 1) := by push_cast; ring
    rw [he] at hz
    by_cases hc : b64 (-1 / 1000) ≤ cad.zmin (base.map (Edge.up (b64 (s * (i + 1)))))
    · constructor
      · intro h
        exfalso
        have : ((i + 1 : ℕ) : ℚ) * s ≤ ((i + (r + 1) : ℕ) : ℚ) * s := by
          apply mul_le_mul_of_nonneg_right _ hs.le
          exact_mod_cast by omega
        linarith [hz.1, hz.2]
      · intro _ _
        refine ⟨0, [], ?_, by omega, by simp, fun k h1 h2 => by omega, ?_⟩
        · simp only [stepLayers64, if_pos hc]
        · rw [Nat.add_zero]
          linarith [hz.1, hz.2]
    · have hlt := not_le.mp hc
      have hl : leftBelow cad top (base.map (Edge.up (b64 (s * (i + 1))))) = true :=
        leftBelow_iff.mpr (hk _ (by linarith))
      have hstep : stepLayers64 cad top base s (r + 1) i =
          (do
            let rest ← stepLayers64 cad top base s r (i + 1)
            .ok (base.map (Edge.up (b64 (s * (i + 1)))) :: rest)) := by
        simp only [stepLayers64, if_neg hc, hl, if_true]
      obtain ⟨h1, h2⟩ := ih (i + 1) (by omega)
      have he' : (i + 1 + r : ℕ) = i + (r + 1) := by omega
      rw [he'] at h1 h2
      constructor
      · intro h
        rw [hstep, h1 h]; rfl
      · intro _ h
        have hr : 0 < r := by
          rcases Nat.eq_zero_or_pos r with rfl | hr
          · exfalso
            rw [Nat.zero_add] at h
            linarith [hz.1, hz.2]
          · exact hr
        obtain ⟨m, ls, k1, k2, k3, k4, k5⟩ := h2 hr h
        refine ⟨m + 1, _ :: ls, by rw [hstep, k1]; rfl, by omega, ?_, ?_, ?_⟩
        · rw [List.range'_succ, List.map_cons, ← k3, he]
        · intro k ha hb'
          by_cases hk' : k = i + 1
          · rw [hk']; linarith [hz.1, hz.2]
          · exact k4 k (by omega) (by omega)
        · have : i + (m + 1) + 1 = i + 1 + m + 1 := by omega
          rw [this]; exact k5

theorem raise_zero (b : List Edge) : b.map (Edge.up 0) = b := by
  rw [show Edge.up 0 = id from by funext e; simp [Edge.up, Vec.up], List.map_id]

/-- The passes of one wire, with their heights. -/
theorem profileLayers64_spec {cad : Cad} {top : Frame} {τ s L tol : ℚ} {base : List Edge}
    (hb : BoxMovesWithin τ (2 * L) cad base) (hk : KeepsBelow cad top) (hs : 0 < s) (hL : 1 ≤ L) (hsL : 101 * s ≤ L)
    (ht : τ + 2 * (2 ^ (-52 : ℤ) * L) ≤ tol) :
    (cad.zmin base + 101 * s < -1 / 1000 - tol → profileLayers64 cad top base (some s) = .error .runtimeError) ∧
    (-1 / 1000 + tol ≤ cad.zmin base + 101 * s → ∃ n : ℕ, n ≤ 100 ∧
      profileLayers64 cad top base (some s) = .ok ((List.range (n + 1)).reverse.map (fun k : ℕ => base.map (Edge.up (b64 (s * k))))) ∧
      (∀ k : ℕ, 1 ≤ k → k ≤ n → cad.zmin base + k * s < -1 / 1000 + tol) ∧
      -1 / 1000 - tol ≤ cad.zmin base + (n + 1 : ℕ) * s) := by
  have hp : profileLayers64 cad top base (some s) = (do
        let ls ← stepLayers64 cad top base s 101 0
        .ok (base :: ls).reverse) := by simp only [profileLayers64, hs.ne', if_false]
  obtain ⟨h1, h2⟩ := stepLayers64_spec hb hk hs hL hsL ht 101 0 (by norm_num)
  simp only [Nat.zero_add, Nat.cast_ofNat] at h1 h2
  constructor
  · intro h
    rw [hp, h1 h]; rfl
  · intro h
    obtain ⟨m, ls, k1, k2, k3, k4, k5⟩ := h2 (by norm_num) h
    refine ⟨m, by omega, ?_, fun k ha hb' => k4 k (by omega) hb', k5⟩
    rw [hp, k1, k3]
    show Except.ok _ = Except.ok _
    rw [List.map_reverse, List.range_eq_range', List.range'_succ, List.map_cons, Nat.cast_zero, mul_zero, b64_zero, raise_zero]

theorem nearCopies_map {s L : ℚ} (hs : 0 < s) (hL : 1 ≤ L) (hsL : 101 * s ≤ L) (base : List Edge) {n : ℕ} (hn : n ≤ 100) :
    NearCopies (2 ^ (-52 : ℤ) * L) s base n ((List.range (n + 1)).reverse.map (fun k : ℕ => base.map (Edge.up (b64 (s * k))))) := by
  constructor
  · rw [List.forall₂_map_right_iff]
    refine List.forall₂_same.mpr fun k hk => ?_
    rw [List.mem_reverse, List.mem_range] at hk
    exact ⟨_, passHeight_near hs hL hsL (by omega), raised_up _ _⟩
  · rw [List.map_reverse, List.getLast?_reverse, List.range_succ_eq_map, List.map_cons, Nat.cast_zero, mul_zero, b64_zero, raise_zero]
    rfl

/-- C132 (as far as it holds, see `C132_violated`: the top plane must not cut a pass away).  With a stepdown `s > 0` the passes of a
profile, computed in floating point with a kernel whose bounding boxes are only right up to `τ`, are copies of the base wire raised by
multiples of `s` up to rounding, that start at most `s` below the surface up to the tolerance of 0.001 and the errors.  If more than 101
passes would be needed, the profile is refused. -/
theorem C132_passes_partial {cad : Cad} {top : Frame} {τ s L tol : ℚ} {base : List Edge}
    (hb : BoxMovesWithin τ (2 * L) cad base) (hk : KeepsBelow cad top) (hs : 0 < s) (hL : 1 ≤ L) (hsL : 101 * s ≤ L)
    (ht : 2 * τ + 3 * (2 ^ (-52 : ℤ) * L) ≤ tol) (hτ : 0 ≤ τ) :
    (cad.zmin base + 101 * s < -1 / 1000 - tol → profileLayers64 cad top base (some s) = .error .runtimeError) ∧
    (-1 / 1000 + tol ≤ cad.zmin base + 101 * s → ∃ layers, profileLayers64 cad top base (some s) = .ok layers ∧
      NearPasses cad (2 ^ (-52 : ℤ) * L) tol s base layers) := by
  have hμ : (0 : ℚ) < 2 ^ (-52 : ℤ) * L := by
    have := two_zpow_pos (-52)
    positivity
  obtain ⟨h1, h2⟩ := profileLayers64_spec (tol := τ + 2 * (2 ^ (-52 : ℤ) * L)) hb hk hs hL hsL le_rfl
  have hcopies : ∀ {n : ℕ}, n ≤ 100 → _ := fun {n} hn => nearCopies_map hs hL hsL base (n := n) hn
  have hbox : ∀ {k : ℕ}, k ≤ 101 → _ := fun {k} hk' => passBox_near hb hs hL hsL (k := k) hk'
  generalize (2 : ℚ) ^ (-52 : ℤ) * L = ε at *
  constructor
  · intro h
    exact h1 (by linarith)
  · intro h
    obtain ⟨n, k1, k2, k3, k4⟩ := h2 (by linarith)
    refine ⟨_, k2, n, k1, hcopies k1, fun k ha hb' => ?_, ?_⟩
    · have := k3 k ha hb'
      linarith
    · intro w hw
      rw [List.range_succ, List.reverse_append, List.reverse_singleton, List.singleton_append, List.map_cons, List.head?_cons,
        Option.some.injEq] at hw
      subst hw
      have h5 := abs_le.mp (hbox (k := n) (by omega))
      have h6 : ((n + 1 : ℕ) : ℚ) * s = n * s + s := by push_cast; ring
      rw [h6] at k4
      linarith [h5.1]

/-- C132, the number of passes: if the pass number `n` is deeper than the tolerance and the next one is not, both by more than the
errors, there are exactly `n` passes above the base wire. -/
theorem C132_count_partial {cad : Cad} {top : Frame} {τ s L tol : ℚ} {base : List Edge}
    (hb : BoxMovesWithin τ (2 * L) cad base) (hk : KeepsBelow cad top) (hs : 0 < s) (hL : 1 ≤ L) (hsL : 101 * s ≤ L)
    (ht : τ + 2 * (2 ^ (-52 : ℤ) * L) ≤ tol) {n : ℕ} (hn : n ≤ 100) (hlow : 0 < n → cad.zmin base + n * s < -1 / 1000 - tol)
    (hhigh : -1 / 1000 + tol ≤ cad.zmin base + (n + 1 : ℕ) * s) :
    ∃ layers, profileLayers64 cad top base (some s) = .ok layers ∧ NearCopies (2 ^ (-52 : ℤ) * L) s base n layers := by
  obtain ⟨-, h2⟩ := profileLayers64_spec hb hk hs hL hsL ht
  have hmono : ∀ {a b : ℕ}, a ≤ b → (a : ℚ) * s ≤ b * s := fun h => mul_le_mul_of_nonneg_right (by exact_mod_cast h) hs.le
  obtain ⟨m, k1, k2, k3, k4⟩ := h2 (by
    have : ((n + 1 : ℕ) : ℚ) * s ≤ ((101 : ℕ) : ℚ) * s := hmono (by omega)
    rw [Nat.cast_ofNat] at this
    linarith)
  have hm : m = n := by
    rcases Nat.lt_trichotomy m n with h | h | h
    · exfalso
      have h3 := hlow (by omega)
      have := hmono (Nat.succ_le_of_lt h)
      rw [Nat.succ_eq_add_one] at this
      linarith
    · exact h
    · exfalso
      have := k3 (n + 1) (by omega) (by omega)
      linarith
  subst hm
  exact ⟨_, k2, nearCopies_map hs hL hsL base k1⟩

/-- C132, in numbers: a kernel whose boxes are right up to 0.0001 mm, a stepdown between 0.01 mm and 10 m, and a depth that is `n`
stepdowns up to 0.0005 mm, with `n` at most 101: there are exactly `n` passes – the one at the surface is not cut again, and
none is left out. -/
theorem C132_millimetres_partial {cad : Cad} {top : Frame} {base : List Edge} (hb : BoxMovesWithin (1 / 10000) 2020000 cad base)
    (hk : KeepsBelow cad top) {s : ℚ} (hs : 1 / 100 ≤ s) (hsL : s ≤ 10000) {n : ℕ} (hn : 0 < n) (hn' : n ≤ 101)
    (hd : |cad.zmin base + n * s| ≤ 1 / 2000) :
    ∃ layers, profileLayers64 cad top base (some s) = .ok layers ∧ layers.length = n ∧
      NearCopies (1 / 10 ^ 9) s base (n - 1) layers := by
  obtain ⟨d1, d2⟩ := abs_le.mp hd
  have h52 : (2 : ℚ) ^ (-52 : ℤ) = 1 / 4503599627370496 := by norm_num
  obtain ⟨m, rfl⟩ : ∃ m, n = m + 1 := ⟨n - 1, by omega⟩
  have hm : ((m + 1 : ℕ) : ℚ) * s = m * s + s := by push_cast; ring
  obtain ⟨layers, h1, h2⟩ := C132_count_partial (tol := 1 / 5000) (L := 1010000) (by norm_num; exact hb) hk (by linarith : (0 : ℚ) < s) (by norm_num)
    (by linarith) (by rw [h52]; norm_num) (n := m) (by omega) (fun _ => by rw [hm] at d2; linarith) (by linarith)
  refine ⟨layers, h1, ?_, ?_⟩
  · have := h2.1.length_eq
    rw [List.length_reverse, List.length_range] at this
    exact this.symm
  · rw [Nat.add_sub_cancel]
    refine ⟨h2.1.imp ?_, h2.2⟩
    rintro k w ⟨dz, g1, g2⟩
    refine ⟨dz, g1.trans ?_, g2⟩
    rw [h52]; norm_num

/-- Cutting lists of sound wires one after the other. -/
theorem routeWires_passes {cad : Cad} {j : Job} {P : List Edge → List (List Edge) → Prop} {bases : List (List Edge)}
    {lss : List (List (List Edge))} (h2 : List.Forall₂ P bases lss)
    (h3 : ∀ ls ∈ lss, ∀ w ∈ ls, WireOK w ∧ NearestIsVertex cad w) :
    ∃ blocks : List (List (List Motion)), routeWires cad.veq cad.search j lss.flatten none none = .ok blocks.flatten.flatten ∧
      List.Forall₂ (fun base block => ∃ layers, P base layers ∧
        List.Forall₂ (WholeWire cad.veq j.feed none) layers block) bases blocks := by
  obtain ⟨bs, h4, h5⟩ := routeWires_whole (veq := cad.veq) (search := cad.search) (j := j) (ws := lss.flatten)
    (by
      intro w hw
      obtain ⟨l, hl, hw⟩ := List.mem_flatten.mp hw
      exact (h3 l hl w hw).2)
    (by
      intro w hw
      obtain ⟨l, hl, hw⟩ := List.mem_flatten.mp hw
      exact (h3 l hl w hw).1)
  have hsplit : ∀ {lss : List (List (List Edge))} {bs : List (List Motion)},
      List.Forall₂ (WholeWire cad.veq j.feed none) lss.flatten bs →
      ∃ blocks : List (List (List Motion)), bs = blocks.flatten ∧
        List.Forall₂ (List.Forall₂ (WholeWire cad.veq j.feed none)) lss blocks := by
    intro lss
    induction lss with
    | nil => intro bs h; cases h; exact ⟨[], rfl, .nil⟩
    | cons l ls ih =>
      intro bs h
      rw [List.flatten_cons] at h
      obtain ⟨l1, l2, g1, g2, rfl⟩ := forall₂_append_left h
      obtain ⟨blocks, rfl, g3⟩ := ih g2
      exact ⟨l1 :: blocks, by simp, .cons g1 g3⟩
  obtain ⟨blocks, rfl, h6⟩ := hsplit h5
  refine ⟨blocks, h4, ?_⟩
  clear h3 h4 h5
  induction h2 generalizing blocks with
  | nil => cases h6; exact .nil
  | cons p ps ih =>
    cases h6 with
    | cons q qs => exact .cons ⟨_, p, q⟩ (ih _ qs)

theorem stepLayers64_mem {cad : Cad} {top : Frame} {base : List Edge} {s : ℚ} {rounds i : ℕ} {ls : List (List Edge)}
    (h : stepLayers64 cad top base s rounds i = .ok ls) : ∀ w ∈ ls, ∃ dz, w = base.map (Edge.up dz) := by
  induction rounds generalizing i ls with
  | zero => cases h
  | succ r ih =>
    simp only [stepLayers64] at h
    split at h
    · cases h; simp
    · split at h
      · obtain ⟨rest, h1, h⟩ := bind_ok.mp h
        cases h
        intro w hw
        rcases List.mem_cons.mp hw with rfl | hw
        · exact ⟨_, rfl⟩
        · exact ih h1 w hw
      · cases h; simp

theorem profileLayers64_mem {cad : Cad} {top : Frame} {base : List Edge} {stepdown : Option ℚ} {ls : List (List Edge)}
    (h : profileLayers64 cad top base stepdown = .ok ls) : ∀ w ∈ ls, ∃ dz, w = base.map (Edge.up dz) := by
  have h0 : ∃ dz, base = base.map (Edge.up dz) := ⟨0, (raise_zero base).symm⟩
  cases stepdown with
  | none => cases h; simpa using h0
  | some s =>
    simp only [profileLayers64] at h
    split at h
    · cases h; simpa using h0
    · obtain ⟨ls', h1, h⟩ := bind_ok.mp h
      cases h
      intro w hw
      rw [List.mem_reverse] at hw
      rcases List.mem_cons.mp hw with rfl | hw
      · exact h0
      · exact stepLayers64_mem h1 w hw

/-- C132, the moves (the kernel's boxes move with the wires up to `τ`, the top plane cuts no pass away, and the nearest points between
passes are vertices): for each base wire its passes in order, each cut whole, with an approach before it. -/
theorem C132_cut_partial {cad : Cad} {j : Job} {wire : List Edge} {offset s r τ L tol : ℚ} {bases : List (List Edge)}
    (hb : ∀ b ∈ bases, BoxMovesWithin τ (2 * L) cad b) (hk : KeepsBelow cad j.top) (hr : j.toolRadius = some r)
    (ho : offsetWire64 cad (wire.map (Edge.toLocal j.top)) (b64 (offset * r)) = .ok bases) (hs : 0 < s) (hL : 1 ≤ L)
    (hsL : 101 * s ≤ L) (ht : 2 * τ + 3 * (2 ^ (-52 : ℤ) * L) ≤ tol) (hτ : 0 ≤ τ)
    (hw : ∀ b ∈ bases, WireOK b ∧ -1 / 1000 + tol ≤ cad.zmin b + 101 * s)
    (hv : ∀ b ∈ bases, ∀ dz, NearestIsVertex cad (b.map (Edge.up dz))) :
    ∃ blocks : List (List (List Motion)), profile64 cad j wire offset (some s) = .ok blocks.flatten.flatten ∧
      List.Forall₂ (fun base block => ∃ layers, NearPasses cad (2 ^ (-52 : ℤ) * L) tol s base layers ∧
        List.Forall₂ (WholeWire cad.veq j.feed none) layers block) bases blocks := by
  have hl : ∃ lss, mapE (fun b => profileLayers64 cad j.top b (some s)) bases = .ok lss ∧
      List.Forall₂ (NearPasses cad (2 ^ (-52 : ℤ) * L) tol s) bases lss ∧ ∀ ls ∈ lss, ∀ w ∈ ls, WireOK w ∧ NearestIsVertex cad w := by
    clear ho
    induction bases with
    | nil => exact ⟨[], rfl, .nil, by simp⟩
    | cons b bs ih =>
      obtain ⟨lss, h1, h2, h3⟩ := ih (fun x hx => hb x (by simp [hx])) (fun x hx => hw x (by simp [hx])) (fun x hx => hv x (by simp [hx]))
      obtain ⟨hwb, hzb⟩ := hw b (by simp)
      obtain ⟨ls, h4, h5⟩ := (C132_passes_partial (hb b (by simp)) hk hs hL hsL ht hτ).2 hzb
      refine ⟨ls :: lss, ?_, .cons h5 h2, ?_⟩
      · unfold mapE
        simp only [h4, ok_bind, h1]
      · intro l hl w hwl
        rcases List.mem_cons.mp hl with rfl | hl
        · obtain ⟨dz, rfl⟩ := profileLayers64_mem h4 w hwl
          exact ⟨wireOK_up hwb _, hv _ (by simp) _⟩
        · exact h3 l hl w hwl
  obtain ⟨lss, h1, h2, h3⟩ := hl
  obtain ⟨blocks, h4, h5⟩ := routeWires_passes (j := j) h2 h3
  refine ⟨blocks, ?_, h5⟩
  simp only [profile64, hr, ho, ok_bind, h1]
  exact h4

/-- C132 is false when the job's top plane, taken in world coordinates, contains a pass in job coordinates, as C46 (`C46_violated`). -/
theorem C132_violated : ∃ base layers, BoxMovesWithin 0 202 flatCad base ∧ WireOK base ∧ flatCad.zmin base = -6 ∧
    profileLayers64 flatCad lowTop base (some 1) = .ok layers ∧ layers.map flatCad.zmin = [-4, -5, -6] := by
  have hm : (match profileLayers64 flatCad lowTop (innerSquare.map (Edge.up (-5))) (some 1) with
      | .ok ls => decide (ls.map flatCad.zmin = [-4, -5, -6]) | .error _ => false) = true := by decide +kernel
  cases h : profileLayers64 flatCad lowTop (innerSquare.map (Edge.up (-5))) (some 1) with
  | error e => rw [h] at hm; cases hm
  | ok ls =>
    rw [h] at hm
    refine ⟨_, ls, ?_, wireOK_up innerSquare_ok _, by decide +kernel, h, by simpa using hm⟩
    intro dz w _ _ hw
    rw [flatCad_boxMoves _ _ _ (by simp [innerSquare, outline]) hw, sub_self, abs_zero]

/-! ### An imprecise kernel -/

/-- `flatCad` with a box that is larger by 0.0000001 and rounded. -/
def gapCad : Cad := { flatCad with zmin := fun w => b64 (lowest w - 1 / 10 ^ 7) }

theorem gapCad_box {base : List Edge} (hne : base ≠ []) (hz : |lowest base| ≤ 1000) : BoxMovesWithin (1 / 10000) 2020000 gapCad base := by
  intro dz w h0 h1 hw
  have h : lowest w = lowest base + dz := flatCad_boxMoves _ _ _ hne hw
  change |b64 (lowest w - 1 / 10 ^ 7) - (b64 (lowest base - 1 / 10 ^ 7) + dz)| ≤ _
  rw [h]
  have hz' := abs_le.mp hz
  have e1 := abs_le.mp (b64_err_mu (x := lowest base + dz - 1 / 10 ^ 7) (X := 3000000)
    (abs_le.mpr ⟨by norm_num; linarith, by norm_num; linarith⟩) (by norm_num))
  have e2 := abs_le.mp (b64_err_mu (x := lowest base - 1 / 10 ^ 7) (X := 3000000)
    (abs_le.mpr ⟨by norm_num; linarith, by norm_num; linarith⟩) (by norm_num))
  rw [show (2 : ℚ) ^ (-52 : ℤ) = 1 / 4503599627370496 from by norm_num] at e1 e2
  rw [abs_le]
  constructor <;> linarith [e1.1, e1.2, e2.1, e2.2]

theorem gapCad_keepsBelow : KeepsBelow gapCad Frame.xy := by
  intro w hw
  have hd : IsDouble (-(2 ^ (-20 : ℤ) : ℚ)) := isDouble_neg (isDouble_two_zpow (by norm_num))
  have hlt : lowest w < 0 := by
    by_contra h
    have := le_b64 (x := lowest w - 1 / 10 ^ 7) hd (by norm_num; linarith [not_lt.mp h])
    have h2 : b64 (lowest w - 1 / 10 ^ 7) < -1 / 1000 := hw
    norm_num at this h2
    linarith
  have hne : w ≠ [] := by
    rintro rfl
    exact absurd hlt (by simp [lowest])
  obtain ⟨e, he, hz⟩ := lowest_mem hne
  have hw' : (e.travel 0).z < 0 := by rw [hz]; exact hlt
  refine ⟨e, ?_, hw'⟩
  simp only [gapCad, flatCad, List.mem_filter, he, true_and, Bool.not_eq_true', inPlane, Bool.and_eq_false_iff,
    decide_eq_false_iff_not]
  left
  simp [Frame.xy, Vec.sub, Vec.dot]
  exact hw'.ne

/-- The hypotheses of C132 hold for a wire at depth 3 with a stepdown of 0.3, with a kernel that rounds: there are exactly ten passes (in
contrast to the pocket of `C97_violated`). -/
example : BoxMovesWithin (1 / 10000) 2020000 gapCad (innerSquare.map (Edge.up (-2))) ∧ KeepsBelow gapCad Frame.xy ∧
    gapCad.zmin (innerSquare.map (Edge.up (-2))) ≠ -3 ∧ WireOK (innerSquare.map (Edge.up (-2))) ∧
    (∀ dz, NearestIsVertex gapCad ((innerSquare.map (Edge.up (-2))).map (Edge.up dz))) ∧
    ∃ layers, profileLayers64 gapCad Frame.xy (innerSquare.map (Edge.up (-2))) (some (b64 (3 / 10))) = .ok layers ∧ layers.length = 10 := by
  have hb := gapCad_box (base := innerSquare.map (Edge.up (-2))) (by simp [innerSquare, outline]) (by decide +kernel)
  refine ⟨hb, gapCad_keepsBelow, by decide +kernel, wireOK_up innerSquare_ok _, fun _ _ _ h => (by cases h), ?_⟩
  obtain ⟨layers, h1, h2, -⟩ := C132_millimetres_partial hb gapCad_keepsBelow (s := b64 (3 / 10)) (by decide +kernel)
    (by decide +kernel) (n := 10) (by norm_num) (by norm_num) (by decide +kernel)
  exact ⟨layers, h1, h2⟩

/-- The moves in floating point: 22 commands for three passes. -/
example : ∃ cs, profile64 gapCad millJob (innerSquare.map (Edge.up (-2))) 1 (some 1) = .ok cs ∧ cs.length = 22 := by
  have hm : (match profile64 gapCad millJob (innerSquare.map (Edge.up (-2))) 1 (some 1) with
      | .ok cs => decide (cs.length = 22) | .error _ => false) = true := by decide +kernel
  cases h : profile64 gapCad millJob (innerSquare.map (Edge.up (-2))) 1 (some 1) with
  | error e => rw [h] at hm; cases hm
  | ok cs =>
    rw [h] at hm
    exact ⟨cs, rfl, by simpa using hm⟩

end CQ
