import Verif.Model.Binary64
import Verif.Proofs.Binary64
import Verif.Props.PocketPasses
import Verif.Props.Surface

/-! # C97, C98: the passes of pockets and of 3D surfacing in floating point -/

namespace CQ

/-- The error of `n` passes computed with doubles, all depths at most `M`. -/
def passError (n : ℕ) (M : ℚ) : ℚ := (8 * n + 32) * 2 ^ (-52 : ℤ) * M

theorem b64_err_mu {x X : ℚ} (h : |x| ≤ X) (hX : 1 ≤ X) : |b64 x - x| ≤ 2 ^ (-52 : ℤ) * X := by
  have h1 := b64_err_le h hX
  rw [show (2 : ℚ) * 2 ^ (-53 : ℤ) = 2 ^ (-52 : ℤ) from by norm_num] at h1
  exact h1

/-- The number of values of `arange`. -/
theorem arange64_count {F T s M : ℚ} (hs : 0 < s) (hM : 1 ≤ M) (hF : |F| ≤ M) (hT : |T| ≤ M) (hsM : s ≤ M) :
    |b64 (b64 (T - F) / -s) * s - (F - T)| ≤ 3 * 2 ^ (-52 : ℤ) * M := by
  have e1 := b64_err (T - F)
  have e2 := b64_err (b64 (T - F) / -s)
  set d := b64 (T - F)
  set r := b64 (d / -s)
  have hD : |T - F| ≤ 2 * M := by
    have := abs_sub T F
    linarith
  have hu : (2 : ℚ) ^ (-52 : ℤ) = 2 * 2 ^ (-53 : ℤ) := by norm_num
  have hη : (2 : ℚ) ^ (-1075 : ℤ) ≤ 2 ^ (-53 : ℤ) / 64 := by
    rw [show (2 : ℚ) ^ (-53 : ℤ) / 64 = 2 ^ (-59 : ℤ) from by norm_num]
    exact zpow_le_zpow_right₀ (by norm_num) (by norm_num)
  have hup := two_zpow_pos (-53)
  have hηp := two_zpow_pos (-1075)
  have hu1 : (2 : ℚ) ^ (-53 : ℤ) ≤ 1 / 64 := by norm_num
  rw [hu]
  generalize (2 : ℚ) ^ (-53 : ℤ) = u at *
  generalize (2 : ℚ) ^ (-1075 : ℤ) = η at *
  have hd : |d| ≤ 2 * M + u * (2 * M) + η := by
    have := abs_sub_abs_le_abs_sub d (T - F)
    nlinarith
  have h2 : |r * s - -d| ≤ u * |d| + η * s := by
    have e3 : r * s - -d = (r - d / -s) * s := by field_simp
    rw [e3, abs_mul, abs_of_pos hs]
    have e4 : |d / -s| * s = |d| := by rw [abs_div, abs_neg, abs_of_pos hs]; field_simp
    nlinarith [mul_le_mul_of_nonneg_right e2 hs.le]
  have h3 : |r * s - (F - T)| ≤ |r * s - -d| + |d - (T - F)| := by
    have := abs_add_le (r * s - -d) (-(d - (T - F)))
    rw [abs_neg] at this
    refine le_trans (le_of_eq ?_) this
    congr 1
    ring
  have h4 : u * |d| ≤ u * (2 * M + u * (2 * M) + η) := mul_le_mul_of_nonneg_left hd hup.le
  have h5 : u * |T - F| ≤ u * (2 * M) := mul_le_mul_of_nonneg_left hD hup.le
  have h6 : η * s ≤ η * M := mul_le_mul_of_nonneg_left hsM hηp.le
  have h7 : η * M ≤ u / 64 * M := mul_le_mul_of_nonneg_right hη (by linarith)
  have h8 : u * (u * (2 * M)) ≤ u * (1 / 64 * (2 * M)) := by
    apply mul_le_mul_of_nonneg_left _ hup.le
    apply mul_le_mul_of_nonneg_right hu1; linarith
  have h9 : u * η ≤ u * (1 / 64) := mul_le_mul_of_nonneg_left (by linarith) hup.le
  have h10 : u ≤ u * M := by nlinarith
  nlinarith

/-- The values of `arange`. -/
theorem arange64_value {F T s M : ℚ} (hs : 0 < s) (hM : 1 ≤ M) (hF : |F| ≤ M) (hT : |T| ≤ M) (hsM : s ≤ M) {i n : ℕ}
    (hi : i ≤ n) (hn : n ≤ 2 ^ 49) (his : i * s ≤ F - T + 3 * 2 ^ (-52 : ℤ) * M) :
    |(if i = 0 then F else if i = 1 then b64 (F + -s) else b64 (F + b64 (i * b64 (b64 (F + -s) - F)))) - (F - i * s)| ≤
      (4 * n + 12) * 2 ^ (-52 : ℤ) * M := by
  have hμ := two_zpow_pos (-52)
  have hμ1 : (2 : ℚ) ^ (-52 : ℤ) * (4 * 2 ^ 49) ≤ 1 := by norm_num
  have hn' : (n : ℚ) ≤ 2 ^ 49 := by exact_mod_cast hn
  have hi' : (i : ℚ) ≤ n := by exact_mod_cast hi
  have hi0 : (0 : ℚ) ≤ i := Nat.cast_nonneg i
  have a1 : |b64 (F + -s) - (F + -s)| ≤ 2 ^ (-52 : ℤ) * (2 * M) := by
    refine b64_err_mu ?_ (by linarith)
    have := abs_add_le F (-s)
    rw [abs_neg, abs_of_pos hs] at this
    linarith
  have hμ2 : (2 : ℚ) ^ (-52 : ℤ) ≤ 1 / 64 := by norm_num
  have a2 : |b64 (b64 (F + -s) - F) - (b64 (F + -s) - F)| ≤ 2 ^ (-52 : ℤ) * (2 * M) := by
    refine b64_err_mu ?_ (by linarith)
    have := abs_le.mp a1
    rw [abs_le]
    constructor <;> nlinarith
  have hT' := abs_le.mp hT
  have hF' := abs_le.mp hF
  have mu : ∀ {x X : ℚ}, |x| ≤ X → 1 ≤ X → |b64 x - x| ≤ 2 ^ (-52 : ℤ) * X := b64_err_mu
  generalize (2 : ℚ) ^ (-52 : ℤ) = μ at *
  set δ := b64 (b64 (F + -s) - F)
  have hδ : |δ + s| ≤ 4 * μ * M := by
    have := abs_le.mp a1
    have := abs_le.mp a2
    rw [abs_le]
    constructor <;> nlinarith
  have hiδ : |i * δ + i * s| ≤ 4 * n * μ * M := by
    rw [← mul_add, abs_mul, abs_of_nonneg hi0]
    calc _ ≤ (n : ℚ) * (4 * μ * M) := mul_le_mul hi' hδ (abs_nonneg _) (by linarith)
      _ = _ := by ring
  have hnM : 4 * n * μ * M ≤ M := by
    have : 4 * n * μ ≤ 1 := by nlinarith
    nlinarith
  have his0 : 0 ≤ i * s := mul_nonneg hi0 hs.le
  have his3 : i * s ≤ 3 * M := by nlinarith
  have a3 : |b64 (i * δ) - i * δ| ≤ μ * (4 * M) := by
    refine mu ?_ (by linarith)
    have := abs_le.mp hiδ
    rw [abs_le]
    constructor <;> linarith
  have a4 : |b64 (F + b64 (i * δ)) - (F + b64 (i * δ))| ≤ μ * (6 * M) := by
    refine mu ?_ (by linarith)
    have := abs_le.mp hiδ
    have := abs_le.mp a3
    rw [abs_le]
    constructor <;> nlinarith
  have hM0 : 0 ≤ μ * M := by positivity
  have hnM0 : 0 ≤ n * (μ * M) := by positivity
  split_ifs with h0 h1
  · subst h0
    simp only [Nat.cast_zero, zero_mul, sub_zero, sub_self, abs_zero]
    nlinarith
  · subst h1
    have := abs_le.mp a1
    rw [abs_le]
    push_cast
    constructor <;> nlinarith
  · have := abs_le.mp a3
    have := abs_le.mp a4
    have := abs_le.mp hiδ
    rw [abs_le]
    constructor <;> nlinarith

theorem chain_between {α : Type} {R : α → α → Prop} (T : α) : ∀ (n : ℕ) (S : α) (f : ℕ → α), (0 < n → R S (f 0)) →
    (∀ i, i + 1 < n → R (f i) (f (i + 1))) → (n = 0 → R S T) → (∀ m, n = m + 1 → R (f m) T) →
    List.IsChain R (S :: ((List.range n).map f ++ [T])) := by
  intro n
  induction n with
  | zero =>
    intro S f _ _ h _
    simpa using h rfl
  | succ n ih =>
    intro S f h1 h2 _ h4
    rw [List.range_succ_eq_map]
    simp only [List.map_cons, List.map_map, List.cons_append]
    refine List.IsChain.cons_cons (h1 (by omega)) ?_
    refine ih (f 0) (f ∘ Nat.succ) (fun h => h2 0 (by omega)) (fun i hi => h2 (i + 1) (by omega)) (fun h => ?_) (fun m hm => ?_)
    · subst h; exact h4 0 rfl
    · subst hm; exact h4 (m + 1) rfl

/-- `arange` downwards from `F`, and then `T`. -/
theorem arange64_passes {S F T s M : ℚ} (hs : 0 < s) (hM : 1 ≤ M) (hF : |F| ≤ M) (hT : |T| ≤ M) (hsM : s ≤ M)
    (hS : |F - (S - s)| ≤ 2 ^ (-52 : ℤ) * (2 * M)) (hTS : T ≤ S) (hn : (arange64 F T (-s)).length ≤ 2 ^ 49) :
    List.IsChain (NextPassUpTo (passError (arange64 F T (-s)).length M) s) (S :: (arange64 F T (-s) ++ [T])) ∧
      (∀ d ∈ arange64 F T (-s), T - passError (arange64 F T (-s)).length M ≤ d ∧ d ≤ S + passError (arange64 F T (-s)).length M) ∧
      ∀ γ, OffMultiples γ s S T → List.IsChain (fun a b => γ - passError (arange64 F T (-s)).length M ≤ a - b)
        (S :: (arange64 F T (-s) ++ [T])) := by
  have hc := arange64_count hs hM hF hT hsM
  have hlen : (arange64 F T (-s)).length = ⌈b64 (b64 (T - F) / -s)⌉.toNat := by simp [arange64]
  rw [hlen] at hn ⊢
  have hv := fun {i n : ℕ} => arange64_value (i := i) (n := n) hs hM hF hT hsM
  unfold arange64 passError
  generalize b64 (b64 (T - F) / -s) = r at *
  set n := ⌈r⌉.toNat with hnr
  set f : ℕ → ℚ := fun i => if i = 0 then F else if i = 1 then b64 (F + -s) else b64 (F + b64 (i * b64 (b64 (F + -s) - F))) with hf
  have hμ := two_zpow_pos (-52)
  generalize (2 : ℚ) ^ (-52 : ℤ) = μ at *
  have hM0 : 0 ≤ μ * M := by positivity
  have hnM0 : 0 ≤ n * (μ * M) := by positivity
  have hcc := abs_le.mp hc
  have hSS := abs_le.mp hS
  have hi : ∀ i < n, i * s ≤ F - T + 3 * μ * M := by
    intro i hin
    have : (i : ℤ) < ⌈r⌉ := by omega
    have : (i : ℚ) < r := by exact_mod_cast Int.lt_ceil.mp this
    nlinarith
  have hval : ∀ i < n, |f i - (F - i * s)| ≤ (4 * n + 12) * μ * M := fun i hin => hv hin.le hn (hi i hin)
  have hlast : F - n * s ≤ T + 3 * μ * M := by
    have h1 : r ≤ n := by
      have := Int.le_ceil r
      have h2 : ⌈r⌉ ≤ (n : ℤ) := by omega
      have h3 : ((⌈r⌉ : ℤ) : ℚ) ≤ ((n : ℤ) : ℚ) := by exact_mod_cast h2
      push_cast at h3
      linarith
    nlinarith
  have hns : ∀ i < n, (i + 1 : ℚ) ≤ n := by intro i hin; exact_mod_cast hin
  refine ⟨?_, ?_, ?_⟩
  · refine chain_between T n S f ?_ ?_ ?_ ?_
    · intro h
      have : f 0 = F := rfl
      rw [this]
      constructor <;> nlinarith
    · intro i hin
      have h1 := abs_le.mp (hval i (by omega))
      have h2 := abs_le.mp (hval (i + 1) hin)
      push_cast at h2
      constructor <;> nlinarith
    · intro h
      rw [h] at hlast ⊢
      simp only [Nat.cast_zero, zero_mul, sub_zero] at hlast
      constructor <;> nlinarith
    · intro m hm
      have h1 := abs_le.mp (hval m (by omega))
      have h2 := hi m (by omega)
      rw [hm] at hlast
      push_cast at hlast
      constructor <;> nlinarith
  · intro d hd
    obtain ⟨i, hin, rfl⟩ := List.mem_map.mp hd
    rw [List.mem_range] at hin
    have h1 := abs_le.mp (hval i hin)
    have h2 := hi i hin
    have : 0 ≤ i * s := by positivity
    constructor <;> nlinarith
  · intro γ hγ
    have hγs : γ ≤ s := by
      have h1 := Int.floor_le ((S - T) / s)
      have h2 := Int.lt_floor_add_one ((S - T) / s)
      have h0 : 0 ≤ ⌊(S - T) / s⌋ := Int.floor_nonneg.mpr (div_nonneg (by linarith) hs.le)
      obtain ⟨k, hk⟩ := Int.eq_ofNat_of_zero_le h0
      rw [hk] at h1 h2
      push_cast at h1 h2
      rw [le_div_iff₀ hs] at h1
      rw [div_lt_iff₀ hs] at h2
      have h3 := hγ k
      rw [abs_of_nonneg (by linarith)] at h3
      linarith
    refine chain_between T n S f ?_ ?_ ?_ ?_
    · intro h
      have : f 0 = F := rfl
      rw [this]
      nlinarith
    · intro i hin
      have h1 := abs_le.mp (hval i (by omega))
      have h2 := abs_le.mp (hval (i + 1) hin)
      push_cast at h2
      nlinarith
    · intro h
      have h3 := hγ 0
      simp only [Nat.cast_zero, zero_mul, sub_zero] at h3
      rw [abs_of_nonneg (by linarith)] at h3
      nlinarith
    · intro m hm
      have h1 := abs_le.mp (hval m (by omega))
      have h2 := hi m (by omega)
      have h3 := hγ (m + 1)
      push_cast at h3
      rcases le_abs.mp h3 with h3 | h3
      · nlinarith
      · nlinarith

/-- There are no more values than needed. -/
theorem arange64_length {S F T s M : ℚ} (hs : 0 < s) (hM : 1 ≤ M) (hF : |F| ≤ M) (hT : |T| ≤ M) (hsM : s ≤ M)
    (hS : |F - (S - s)| ≤ 2 ^ (-52 : ℤ) * (2 * M)) (hTS : T ≤ S) :
    (arange64 F T (-s)).length * s ≤ S - T + passError 0 M := by
  have hc := abs_le.mp (arange64_count hs hM hF hT hsM)
  have hlen : (arange64 F T (-s)).length = ⌈b64 (b64 (T - F) / -s)⌉.toNat := by simp [arange64]
  have hSS := abs_le.mp hS
  have hμ := two_zpow_pos (-52)
  rw [hlen]
  unfold passError
  generalize b64 (b64 (T - F) / -s) = r at *
  generalize (2 : ℚ) ^ (-52 : ℤ) = μ at *
  have hM0 : 0 ≤ μ * M := by positivity
  push_cast
  rcases Nat.eq_zero_or_pos ⌈r⌉.toNat with h0 | h0
  · rw [h0]
    push_cast
    nlinarith
  · obtain ⟨m, hm⟩ : ∃ m, ⌈r⌉.toNat = m + 1 := ⟨⌈r⌉.toNat - 1, by omega⟩
    have h1 : (m : ℤ) < ⌈r⌉ := by omega
    have h2 : (m : ℚ) < r := by exact_mod_cast Int.lt_ceil.mp h1
    rw [hm]
    push_cast
    nlinarith

/-- Nothing is to be stepped down if the depth is not below the start. -/
theorem arange64_none {S T s : ℚ} (hs : 0 < s) (hT : IsDouble T) (h : S ≤ T) : arange64 (b64 (S - s)) T (-s) = [] := by
  have h1 : b64 (S - s) ≤ T := b64_le hT (by linarith)
  have h2 : 0 ≤ b64 (T - b64 (S - s)) := le_b64 isDouble_zero (by linarith)
  have h3 : b64 (b64 (T - b64 (S - s)) / -s) ≤ 0 := b64_le isDouble_zero (by
    rw [div_neg]
    have := div_nonneg h2 hs.le
    linarith)
  unfold arange64
  rw [Int.toNat_of_nonpos (Int.ceil_le.mpr (by exact_mod_cast h3))]
  rfl

/-! ### C97 -/

/-- The depths that are stepped through. -/
def steps64 (start stop s : ℚ) : List ℚ := arange64 (b64 (start - s)) stop (-s)

theorem steps64_first {start s L : ℚ} (hs : 0 < s) (hL : 1 ≤ L) (h1 : |start| ≤ L) (h3 : s ≤ L) :
    |b64 (start - s)| ≤ 3 * L ∧ |b64 (start - s) - (start - s)| ≤ 2 ^ (-52 : ℤ) * (2 * (3 * L)) := by
  have h4 : |start - s| ≤ 2 * L := by
    have := abs_le.mp h1
    rw [abs_le]
    constructor <;> linarith
  have h5 := b64_err_mu h4 (by linarith)
  have hμ := two_zpow_pos (-52)
  constructor
  · have := abs_sub_abs_le_abs_sub (b64 (start - s)) (start - s)
    have : (2 : ℚ) ^ (-52 : ℤ) * (2 * L) ≤ 1 * L := by
      rw [← mul_assoc]
      exact mul_le_mul_of_nonneg_right (by norm_num) (by linarith)
    linarith
  · nlinarith

theorem steps64_length {start stop s L : ℚ} (hs : 0 < s) (hL : 1 ≤ L) (h1 : |start| ≤ L) (h2 : |stop| ≤ L) (h3 : s ≤ L)
    (hlt : stop ≤ start) : (steps64 start stop s).length * s ≤ start - stop + passError 0 (3 * L) := by
  obtain ⟨h5, h6⟩ := steps64_first hs hL h1 h3
  exact arange64_length hs (by linarith) h5 (by linarith) (by linarith) h6 hlt

/-- The passes from `start` down to `stop`, for doubles of absolute value at most `L`. -/
theorem steps64_ok {start stop s L : ℚ} (hs : 0 < s) (hL : 1 ≤ L) (h1 : |start| ≤ L) (h2 : |stop| ≤ L) (h3 : s ≤ L)
    (hn : (steps64 start stop s).length ≤ 2 ^ 49) (hlt : stop ≤ start) :
    let tol := passError (steps64 start stop s).length (3 * L)
    List.IsChain (NextPassUpTo tol s) (start :: (steps64 start stop s ++ [stop])) ∧
      (∀ d ∈ steps64 start stop s, stop - tol ≤ d ∧ d ≤ start + tol) ∧
      ∀ γ, OffMultiples γ s start stop → List.IsChain (fun a b => γ - tol ≤ a - b) (start :: (steps64 start stop s ++ [stop])) := by
  obtain ⟨h5, h6⟩ := steps64_first hs hL h1 h3
  exact arange64_passes hs (by linarith) h5 (by linarith) (by linarith) h6 hlt hn

theorem applyStepdown64_fill {eng : Clipper} {fuel : ℕ} {op : PathFace} {step : ℚ} {precision : ℕ}
    {fill : List (List PathFace)} (h : fillPocket eng fuel op step precision = .ok fill) (start : Option ℚ) {s : ℚ}
    (hs : IsDouble s) :
    applyStepdown64 fill start s = .ok ((steps64 (start.getD 0) op.depth s).flatMap (fun d =>
        fill.map (fun q => q.map (fun f => f.cloneToDepth d)))) := by
  obtain ⟨h1, h2, -⟩ := fill_depths h
  unfold applyStepdown64
  rw [dedup_const (d := op.depth) (by simpa using h2) (by
    intro x hx
    obtain ⟨f, hf, rfl⟩ := List.mem_map.mp hx
    exact h1 f hf)]
  cases start
  · simp [steps64, b64_double (isDouble_neg hs)]
  · simp [steps64]

/-- C97.  The passes of one region, computed with doubles, as in C43: they end at the depth of the region; up to the error of
rounding they go down from the depth where stepping starts, by at most the stepdown each, and do not go below the region, and
there are no more than needed; they are apart if the depth is away from the multiples of the stepdown.  If the region is not below
the start there is only the final pass. -/
theorem C97_passes {eng : Clipper} {fuel : ℕ} {stepover s L : ℚ} {precision : ℕ} {shallower : List PathFace} {op : PathFace}
    {seqs : List (List PathFace)} (hs : 0 < s) (hsd : IsDouble s) (hop : IsDouble op.depth) (hL : 1 ≤ L) (h2 : |op.depth| ≤ L)
    (h3 : s ≤ L) (hsh : ∀ o ∈ shallower, |o.depth| ≤ L)
    (h : opSequences64 eng fuel stepover (some s) precision shallower op = .ok seqs) :
    ∃ fill steps, fillPocket eng fuel op stepover precision = .ok fill ∧
      outlinesOf seqs = (steps ++ [op.depth]).flatMap (fun d => (fill.map (fun q => q.map (fun f => (f.outer, d))))) ∧
      let start := (determineStepdownStartDepth eng op shallower).getD 0
      let tol := passError steps.length (3 * L)
      (start ≤ op.depth → steps = []) ∧ (op.depth ≤ start → steps.length * s ≤ start - op.depth + passError 0 (3 * L)) ∧
      (op.depth ≤ start → steps.length ≤ 2 ^ 49 →
        List.IsChain (NextPassUpTo tol s) (start :: (steps ++ [op.depth])) ∧
        (∀ d ∈ steps, op.depth - tol ≤ d ∧ d ≤ start + tol) ∧
        ∀ γ, OffMultiples γ s start op.depth → List.IsChain (fun a b => γ - tol ≤ a - b) (start :: (steps ++ [op.depth]))) := by
  unfold opSequences64 at h
  obtain ⟨fill, hf, h⟩ := bind_ok.mp h
  simp only [if_neg hs.ne'] at h
  obtain ⟨stepped, h1, h⟩ := bind_ok.mp h
  rw [applyStepdown64_fill hf _ hsd] at h1
  cases h1
  cases h
  have hst : |(determineStepdownStartDepth eng op shallower).getD 0| ≤ L := by
    unfold determineStepdownStartDepth
    cases hh : (((shallower.filter (fun o => eng.contains o op)).map PathFace.depth).insertionSort (· ≤ ·)).head? with
    | none => simpa using by linarith
    | some d =>
      have hd := List.mem_of_mem_head? hh
      rw [List.mem_insertionSort] at hd
      obtain ⟨o, ho, rfl⟩ := List.mem_map.mp hd
      exact hsh o (List.mem_of_mem_filter ho)
  refine ⟨fill, steps64 _ op.depth s, hf, ?_, fun h => arange64_none hs hop h, fun h => steps64_length hs hL hst h2 h3 h,
    fun h hn => steps64_ok hs hL hst h2 h3 hn h⟩
  unfold outlinesOf
  rw [List.map_append, List.flatMap_append, List.map_flatMap]
  congr 1
  · congr 1
    funext d
    rw [List.map_map]
    apply List.map_congr_left
    intro q _
    simp only [Function.comp, List.map_map]
    rfl
  · simp only [List.flatMap_cons, List.flatMap_nil, List.append_nil]
    apply List.map_congr_left
    intro q hq
    apply List.map_congr_left
    intro f hfq
    rw [(fill_depths hf).1 f (List.mem_flatten.mpr ⟨q, hq, hfq⟩)]

/-- For passes within a metre, a thousand of them at most, the error is below a millionth of a millimetre. -/
theorem passError_small {n : ℕ} (h : n ≤ 1000) : passError n (3 * 1000) ≤ 1 / 100000000 := by
  have : (n : ℚ) ≤ 1000 := by exact_mod_cast h
  unfold passError
  norm_num
  linarith

theorem rnd3_lt {a b : ℚ} (h : 1 / 1000 < a - b) : rnd 3 b < rnd 3 a := by
  have h1 := abs_le.mp (abs_rnd_sub_le 3 a)
  have h2 := abs_le.mp (abs_rnd_sub_le 3 b)
  norm_num at h1 h2
  linarith

/-- C97, no pass repeats the one before it, partial: if the way down is at least 0.002 away from the multiples of the stepdown, then
each pass is deeper than the one before it also as printed. -/
theorem C97_no_repeat_partial {eng : Clipper} {fuel : ℕ} {stepover s : ℚ} {precision : ℕ} {shallower : List PathFace} {op : PathFace}
    {seqs : List (List PathFace)} (hs : 0 < s) (hsd : IsDouble s) (hop : IsDouble op.depth) (h2 : |op.depth| ≤ 1000)
    (h3 : s ≤ 1000) (hsh : ∀ o ∈ shallower, |o.depth| ≤ 1000)
    (hlt : op.depth ≤ (determineStepdownStartDepth eng op shallower).getD 0)
    (hcount : (determineStepdownStartDepth eng op shallower).getD 0 - op.depth ≤ 1000 * s - 1 / 1000)
    (hoff : OffMultiples (1 / 500) s ((determineStepdownStartDepth eng op shallower).getD 0) op.depth)
    (h : opSequences64 eng fuel stepover (some s) precision shallower op = .ok seqs) :
    ∃ fill steps, fillPocket eng fuel op stepover precision = .ok fill ∧
      outlinesOf seqs = (steps ++ [op.depth]).flatMap (fun d => (fill.map (fun q => q.map (fun f => (f.outer, d))))) ∧
      List.IsChain (fun a b => rnd 3 b < rnd 3 a)
        ((determineStepdownStartDepth eng op shallower).getD 0 :: (steps ++ [op.depth])) := by
  obtain ⟨fill, steps, g1, g2, -, g4, g5⟩ := C97_passes hs hsd hop (by norm_num) h2 h3 hsh h
  have hlen : steps.length ≤ 1000 := by
    have g := g4 hlt
    have h0 := passError_small (n := 0) (by norm_num)
    by_contra hlen
    have : (1000 : ℚ) ≤ steps.length := by exact_mod_cast (not_le.mp hlen).le
    have := mul_le_mul_of_nonneg_right this hs.le
    generalize passError 0 (3 * 1000) = p at g h0
    linarith
  refine ⟨fill, steps, g1, g2, ?_⟩
  obtain ⟨-, -, k⟩ := g5 hlt (by omega)
  refine (k _ hoff).imp ?_
  intro a b hab
  have := passError_small hlen
  exact rnd3_lt (by linarith)

/-- The last two passes of an output. -/
theorem repeat_get {r : Except Err (List (List PathFace))} {n : ℕ} {d : ℚ}
    (h : (match r with
      | .ok seqs => match seqs[n]?, seqs[n + 1]? with
        | some a, some b => decide (seqs.length = n + 2 ∧ a.map PathFace.outer = b.map PathFace.outer ∧ ∀ f ∈ a ++ b, rnd 3 f.depth = d)
        | _, _ => false
      | .error _ => false) = true) :
    ∃ seqs, r = .ok seqs ∧ seqs.length = n + 2 ∧ ∃ a b, seqs[n]? = some a ∧ seqs[n + 1]? = some b ∧
      a.map PathFace.outer = b.map PathFace.outer ∧ ∀ f ∈ a ++ b, rnd 3 f.depth = d := by
  cases r with
  | error e => cases h
  | ok seqs =>
    cases h1 : seqs[n]? with
    | none => simp only [h1] at h; cases h
    | some a =>
      cases h2 : seqs[n + 1]? with
      | none => simp only [h1, h2] at h; cases h
      | some b =>
        simp only [h1, h2] at h
        have h' := of_decide_eq_true h
        exact ⟨seqs, rfl, h'.1, a, b, h1, h2, h'.2.1, h'.2.2⟩

/-- C97 is false: a pocket of depth 3 with a stepdown of 0.3 is milled at its final depth twice, in the tenth and the eleventh pass
(the tenth is at -2.9999999999999996). -/
theorem C97_violated : ∃ seqs, opSequences64 squareEngine 9 4 (some (b64 (3 / 10))) 3 [] ⟨rect 0 0 10 10, [], -3⟩ = .ok seqs ∧
    seqs.length = 11 ∧ ∃ a b, seqs[9]? = some a ∧ seqs[10]? = some b ∧ a.map PathFace.outer = b.map PathFace.outer ∧
      ∀ f ∈ a ++ b, rnd 3 f.depth = -3 :=
  repeat_get (by decide +kernel)

/-- The hypotheses of `C97_passes` and `C97_no_repeat_partial`: a depth of 2 with a stepdown of 0.3. -/
example : IsDouble (b64 (3 / 10)) ∧ IsDouble (-2) ∧ OffMultiples (1 / 500) (b64 (3 / 10)) 0 (-2) ∧
    ∃ seqs, opSequences64 squareEngine 9 4 (some (b64 (3 / 10))) 3 [] ⟨rect 0 0 10 10, [], -2⟩ = .ok seqs := by
  refine ⟨b64_isDouble _, ⟨-2, 0, by norm_num, by norm_num, by norm_num⟩, ?_, ?_⟩
  · intro k
    have hv : b64 (3 / 10) = 5404319552844595 / 18014398509481984 := by decide +kernel
    rw [hv, le_abs]
    rcases Nat.lt_or_ge 6 k with h | h
    · right
      have : (7 : ℚ) ≤ k := by exact_mod_cast h
      linarith
    · left
      have : (k : ℚ) ≤ 6 := by exact_mod_cast h
      linarith
  · have : (match opSequences64 squareEngine 9 4 (some (b64 (3 / 10))) 3 [] ⟨rect 0 0 10 10, [], -2⟩ with
        | .ok _ => true | .error _ => false) = true := by decide +kernel
    cases h : opSequences64 squareEngine 9 4 (some (b64 (3 / 10))) 3 [] ⟨rect 0 0 10 10, [], -2⟩ with
    | error e => rw [h] at this; cases this
    | ok seqs => exact ⟨seqs, rfl⟩

/-! ### C98 -/

/-- C98, for stepdowns given as negative numbers: the passes of 3D surfacing, computed with doubles, end at the lowest point; up to the
error of rounding they go down from the top height by at most the stepdown each and do not go below the lowest point; they are apart
if the height is away from the multiples of the stepdown. -/
theorem C98_passes_partial {top bottom s L : ℚ} {depths : List ℚ} (hs : 0 < s) (hL : 1 ≤ L) (h1 : |top| ≤ L) (h2 : |bottom| ≤ L)
    (h3 : s ≤ L) (hlt : bottom ≤ top) (h : surfaceDepths64 (some (-s)) top bottom = .ok depths) :
    depths.getLast? = some bottom ∧ (depths.length - 1) * s ≤ top - bottom + passError 0 (3 * L) ∧
      let tol := passError depths.length (3 * L)
      (depths.length ≤ 2 ^ 49 → List.IsChain (NextPassUpTo tol s) (top :: depths) ∧ (∀ d ∈ depths, bottom - tol ≤ d ∧ d ≤ top + tol) ∧
        ∀ γ, OffMultiples γ s top bottom → List.IsChain (fun a b => γ - tol ≤ a - b) (top :: depths)) := by
  have hneg : -s ≠ 0 := by linarith
  have he : arange64 (b64 (top + -s)) bottom (-s) = steps64 top bottom s := by rw [steps64, sub_eq_add_neg]
  have hlen := steps64_length hs hL h1 h2 h3 hlt
  have hmono : ∀ {n m : ℕ}, n ≤ m → passError n (3 * L) ≤ passError m (3 * L) := by
    intro n m hnm
    have : (n : ℚ) ≤ m := by exact_mod_cast hnm
    have hμ := two_zpow_pos (-52)
    unfold passError
    apply mul_le_mul_of_nonneg_right _ (by linarith)
    apply mul_le_mul_of_nonneg_right _ hμ.le
    linarith
  have hpos : ∀ n, 0 ≤ passError n (3 * L) := by
    intro n
    have hμ := two_zpow_pos (-52)
    unfold passError
    positivity
  simp only [surfaceDepths64, if_neg hneg, he] at h
  cases hl : (steps64 top bottom s).getLast? with
  | none => rw [hl] at h; cases h
  | some last =>
    simp only [hl] at h
    split at h
    · cases h
      refine ⟨by simp, ?_, fun hn => ?_⟩
      · rw [List.length_append]
        push_cast
        simpa using hlen
      · have hle : (steps64 top bottom s).length ≤ (steps64 top bottom s ++ [bottom]).length := by simp
        obtain ⟨g1, g2, g3⟩ := steps64_ok hs hL h1 h2 h3 (by omega) hlt
        have ht := hmono hle
        refine ⟨g1.imp ?_, ?_, fun γ hγ => (g3 γ hγ).imp ?_⟩
        · rintro a b ⟨k1, k2⟩; constructor <;> linarith
        · intro d hd
          rcases List.mem_append.mp hd with hd | hd
          · have := g2 d hd
            constructor <;> linarith
          · rw [List.mem_singleton.mp hd]
            have := hpos (steps64 top bottom s ++ [bottom]).length
            constructor <;> linarith
        · intro a b k; linarith
    · rename_i hlast
      cases h
      have hlast : last = bottom := not_not.mp hlast
      subst hlast
      refine ⟨hl, by linarith, fun hn => ?_⟩
      obtain ⟨g1, g2, g3⟩ := steps64_ok hs hL h1 h2 h3 hn hlt
      refine ⟨?_, g2, fun γ hγ => ?_⟩
      · exact (List.isChain_append (l₁ := top :: steps64 top last s) (l₂ := [last]).mp g1).1
      · exact (List.isChain_append (l₁ := top :: steps64 top last s) (l₂ := [last]).mp (g3 γ hγ)).1

/-- C98 is false: surfacing down to -0.9 with a stepdown of -0.3 runs its last pass twice. -/
theorem C98_violated : ∃ depths a b, surfaceDepths64 (some (b64 (-3 / 10))) 0 (b64 (-9 / 10)) = .ok depths ∧ depths.length = 4 ∧
    depths[2]? = some a ∧ depths[3]? = some b ∧ rnd 3 a = -9 / 10 ∧ rnd 3 b = -9 / 10 := by
  have h : (match surfaceDepths64 (some (b64 (-3 / 10))) 0 (b64 (-9 / 10)) with
      | .ok [_, _, a, b] => decide (rnd 3 a = -9 / 10 ∧ rnd 3 b = -9 / 10) | _ => false) = true := by decide +kernel
  split at h
  · rename_i x y a b hd
    have h' := of_decide_eq_true h
    exact ⟨_, a, b, hd, rfl, rfl, rfl, h'.1, h'.2⟩
  · cases h

/-- The hypotheses of `C98_passes_partial`. -/
example : ∃ depths, surfaceDepths64 (some (-b64 (3 / 10))) 0 (-2) = .ok depths ∧ depths.length = 7 := by
  have : (match surfaceDepths64 (some (-b64 (3 / 10))) 0 (-2) with
      | .ok ds => decide (ds.length = 7) | .error _ => false) = true := by decide +kernel
  cases h : surfaceDepths64 (some (-b64 (3 / 10))) 0 (-2) with
  | error e => rw [h] at this; cases this
  | ok ds => rw [h] at this; exact ⟨ds, rfl, of_decide_eq_true this⟩

end CQ
