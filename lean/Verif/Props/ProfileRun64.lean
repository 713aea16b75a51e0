import Verif.Spec.ProfileRun64
import Verif.Props.Profile64
import Verif.Props.ProfileRun
import Verif.Props.ProfileStep

/-! # C143: profiles in floating point on the machine -/

namespace CQ

/-! ### The passes -/

theorem stepLayers64_list {cad : Cad} {top : Frame} (hk : KeepsBelow cad top) {base : List Edge} {s : ℚ} :
    ∀ {rounds i : ℕ} {ls : List (List Edge)}, stepLayers64 cad top base s rounds i = .ok ls → ∃ m : ℕ, m < rounds ∧
      ls = (List.range' (i + 1) m).map (fun k : ℕ => base.map (Edge.up (b64 (s * k)))) ∧
      (∀ k : ℕ, i < k → k ≤ i + m → cad.zmin (base.map (Edge.up (b64 (s * k)))) < b64 (-1 / 1000)) ∧
      b64 (-1 / 1000) ≤ cad.zmin (base.map (Edge.up (b64 (s * (i + m + 1 : ℕ))))) := by
  intro rounds
  induction rounds with
  | zero => intro i ls h; cases h
  | succ r ih =>
    intro i ls h
    have he : s * ((i + 1 : ℕ) : ℚ) = s * (i + 1) := by push_cast; ring
    simp only [stepLayers64] at h
    split at h
    · rename_i hz
      cases h
      refine ⟨0, by omega, rfl, fun k h1 h2 => by omega, ?_⟩
      rw [Nat.add_zero, he]
      exact hz
    · rename_i hz
      have hz' := not_le.mp hz
      rw [if_pos (leftBelow_iff.mpr (hk _ (hz'.trans milli_below)))] at h
      obtain ⟨rest, h1, h⟩ := bind_ok.mp h
      cases h
      obtain ⟨m, k1, rfl, k3, k4⟩ := ih h1
      refine ⟨m + 1, by omega, ?_, ?_, ?_⟩
      · rw [List.range'_succ, List.map_cons, he]
      · intro k ha hb
        by_cases hk' : k = i + 1
        · rw [hk', he]; exact hz'
        · exact k3 k (by omega) (by omega)
      · rw [show i + (m + 1) + 1 = i + 1 + m + 1 from by omega]
        exact k4

/-- The passes of a profile that is not refused. -/
theorem profileLayers64_list {cad : Cad} {top : Frame} (hk : KeepsBelow cad top) {base : List Edge} {s : ℚ} (hs : s ≠ 0)
    {ls : List (List Edge)} (h : profileLayers64 cad top base (some s) = .ok ls) : ∃ n : ℕ, n ≤ 100 ∧
      ls = (List.range (n + 1)).reverse.map (fun k : ℕ => base.map (Edge.up (b64 (s * k)))) ∧
      (∀ k : ℕ, 1 ≤ k → k ≤ n → cad.zmin (base.map (Edge.up (b64 (s * k)))) < b64 (-1 / 1000)) ∧
      b64 (-1 / 1000) ≤ cad.zmin (base.map (Edge.up (b64 (s * (n + 1 : ℕ))))) := by
  simp only [profileLayers64, hs, if_false] at h
  obtain ⟨ls', h1, h⟩ := bind_ok.mp h
  cases h
  obtain ⟨m, k1, rfl, k3, k4⟩ := stepLayers64_list hk h1
  rw [Nat.zero_add] at k4
  refine ⟨m, by omega, ?_, fun k ha hb => k3 k (by omega) (by omega), k4⟩
  rw [List.map_reverse, List.range_eq_range', List.range'_succ, List.map_cons, Nat.cast_zero, mul_zero, b64_zero, raise_zero]

/-- The error of the heights of passes up to `L`. -/
def heightError (L : ℚ) : ℚ := 2 ^ (-52 : ℤ) * L

theorem heightError_pos {L : ℚ} (hL : 1 ≤ L) : 0 < heightError L := by
  have := two_zpow_pos (-52)
  unfold heightError
  positivity

theorem milli_error {L : ℚ} (hL : 1 ≤ L) : -1 / 1000 - heightError L ≤ b64 (-1 / 1000) := by
  have h1 := milli_near
  have h2 := two_zpow_pos (-52)
  have : (2 : ℚ) ^ (-52 : ℤ) * 1 ≤ 2 ^ (-52 : ℤ) * L := mul_le_mul_of_nonneg_left hL h2.le
  unfold heightError
  linarith

/-- A list of passes with their heights. -/
structure Layers64 (cad : Cad) (L τ s : ℚ) (base : List Edge) (n : ℕ) : Prop where
  count : n ≤ 100
  height : ∀ k : ℕ, k ≤ 101 → |b64 (s * k) - k * s| ≤ heightError L
  low : ∀ k : ℕ, 1 ≤ k → k ≤ n → cad.zmin base + k * s < -1 / 1000 + τ + heightError L
  high : -1 / 1000 - τ - 2 * heightError L ≤ cad.zmin base + n * s + s
  box : ∀ k : ℕ, k ≤ 101 → |cad.zmin (base.map (Edge.up (b64 (s * k)))) - (cad.zmin base + k * s)| ≤ τ + heightError L

theorem profileLayers64_layers {cad : Cad} {top : Frame} (hk : KeepsBelow cad top) {base : List Edge} {s L τ : ℚ} (hs : 0 < s)
    (hL : 1 ≤ L) (hsL : 101 * s ≤ L) (hb : BoxMovesWithin τ (2 * L) cad base) {ls : List (List Edge)}
    (h : profileLayers64 cad top base (some s) = .ok ls) : ∃ n : ℕ, Layers64 cad L τ s base n ∧
      ls = (List.range (n + 1)).reverse.map (fun k : ℕ => base.map (Edge.up (b64 (s * k)))) := by
  obtain ⟨n, h1, h2, h3, h4⟩ := profileLayers64_list hk hs.ne' h
  have hbox : ∀ k : ℕ, k ≤ 101 → |cad.zmin (base.map (Edge.up (b64 (s * k)))) - (cad.zmin base + k * s)| ≤ τ + heightError L :=
    fun k hk' => passBox_near hb hs hL hsL hk'
  refine ⟨n, ⟨h1, fun k hk' => passHeight_near hs hL hsL hk', ?_, ?_, hbox⟩, h2⟩
  · intro k ha hb'
    have := abs_le.mp (hbox k (by omega))
    have h5 := h3 k ha hb'
    have := milli_below
    linarith
  · have h5 := abs_le.mp (hbox (n + 1) (by omega))
    have h6 := milli_error hL
    have h7 : ((n + 1 : ℕ) : ℚ) * s = n * s + s := by push_cast; ring
    rw [h7] at h5
    linarith [h5.2]

theorem Layers64.near {cad : Cad} {L τ s tol : ℚ} {base : List Edge} {n : ℕ} (h : Layers64 cad L τ s base n) (hs : 0 < s) (hL : 1 ≤ L)
    (hsL : 101 * s ≤ L) (hτ : 0 ≤ τ) (ht : 2 * τ + 3 * heightError L ≤ tol) :
    NearPasses cad (heightError L) tol s base ((List.range (n + 1)).reverse.map (fun k : ℕ => base.map (Edge.up (b64 (s * k))))) := by
  have he := heightError_pos hL
  refine ⟨n, h.count, nearCopies_map hs hL hsL base h.count, ?_, ?_⟩
  · intro k ha hb
    have := h.low k ha hb
    linarith
  · intro w hw
    rw [List.range_succ, List.reverse_append, List.reverse_singleton, List.singleton_append, List.map_cons, List.head?_cons,
      Option.some.injEq] at hw
    subst hw
    have h5 := abs_le.mp (h.box n (by have := h.count; omega))
    have := h.high
    linarith [h5.1]

/-! ### The moves -/

/-- The moves of the profile of one wire: the passes of each contour, each pass cut whole. -/
def CutsProfile64 (cad : Cad) (j : Job) (offset ε tol : ℚ) (stepdown : Option ℚ) (wire : List Edge) (cs : List Motion) : Prop :=
  ∃ r bases, j.toolRadius = some r ∧ offsetWire64 cad (wire.map (Edge.toLocal j.top)) (b64 (offset * r)) = .ok bases ∧
    ∃ blocks : List (List (List Motion)), cs = blocks.flatten.flatten ∧
      List.Forall₂ (fun base block => ∃ layers, NearPassesOf cad ε tol stepdown base layers ∧ (∀ w ∈ layers, WireOK w) ∧
        List.Forall₂ (WholeWire cad.veq j.feed none) layers block) bases blocks

/-- The conditions on the stepdown and the kernel. -/
structure Steps64 (stepdown : Option ℚ) (L τ tol : ℚ) : Prop where
  size : 1 ≤ L
  step : ∀ s, stepdown = some s → 0 ≤ s ∧ 101 * s ≤ L
  gap : 0 ≤ τ
  small : 2 * τ ≤ 1 / 1000
  tol : 2 * τ + 3 * heightError L ≤ tol

theorem profile64_layers {cad : Cad} {j : Job} {wire : List Edge} {offset : ℚ} {stepdown : Option ℚ} {cs : List Motion}
    (h : profile64 cad j wire offset stepdown = .ok cs) : ∃ r bases lss, j.toolRadius = some r ∧
      offsetWire64 cad (wire.map (Edge.toLocal j.top)) (b64 (offset * r)) = .ok bases ∧
      List.Forall₂ (fun b ls => profileLayers64 cad j.top b stepdown = .ok ls) bases lss ∧
      routeWires cad.veq cad.search j lss.flatten none none = .ok cs := by
  unfold profile64 at h
  cases hr : j.toolRadius with
  | none => rw [hr] at h; cases h
  | some r =>
    rw [hr] at h
    obtain ⟨bases, ho, h⟩ := bind_ok.mp h
    obtain ⟨lss, h2, h⟩ := bind_ok.mp h
    exact ⟨r, bases, lss, rfl, ho, mapE_ok.mp h2, h⟩

theorem layers64_of {cad : Cad} {top : Frame} (hk : KeepsBelow cad top) {base : List Edge} {stepdown : Option ℚ} {L τ tol : ℚ}
    (hc : Steps64 stepdown L τ tol) (hb : BoxMovesWithin τ (2 * L) cad base) {ls : List (List Edge)}
    (h : profileLayers64 cad top base stepdown = .ok ls) :
    (stepdown.getD 0 = 0 ∧ ls = [base]) ∨ ∃ s n, stepdown = some s ∧ 0 < s ∧ Layers64 cad L τ s base n ∧
      ls = (List.range (n + 1)).reverse.map (fun k : ℕ => base.map (Edge.up (b64 (s * k)))) := by
  cases stepdown with
  | none => cases h; exact .inl ⟨rfl, rfl⟩
  | some s =>
    obtain ⟨h0, hsL⟩ := hc.step s rfl
    rcases h0.eq_or_lt with rfl | hpos
    · simp only [profileLayers64, if_true] at h
      cases h; exact .inl ⟨rfl, rfl⟩
    · obtain ⟨n, h1, h2⟩ := profileLayers64_layers hk hpos hc.size hsL hb h
      exact .inr ⟨s, n, rfl, hpos, h1, h2⟩

theorem profile64_moves {cad : Cad} {j : Job} (hk : KeepsBelow cad j.top) {wire : List Edge} {offset L τ tol : ℚ}
    {stepdown : Option ℚ} {cs : List Motion} (hc : Steps64 stepdown L τ tol) (hsafe : 0 ≤ j.opSafeHeight)
    (h : profile64 cad j wire offset stepdown = .ok cs)
    (hw : EachContour64 cad j offset wire (PlainContour64 cad j τ (2 * L))) :
    Connected {} cs ∧ CutsProfile64 cad j offset (heightError L) tol stepdown wire cs := by
  obtain ⟨r, bases, lss, hr, ho, h2, h⟩ := profile64_layers h
  have hlay : List.Forall₂ (fun base layers => base ∈ bases ∧ NearPassesOf cad (heightError L) tol stepdown base layers ∧
      ∀ w ∈ layers, ∃ dz, w = base.map (Edge.up dz) ∧
        ∀ e ∈ base, EdgeAt (fun z => z + dz ≤ j.opSafeHeight) e) bases lss := by
    refine forall₂_imp_mem h2 ?_
    intro base hbase layers hf
    have hp := hw r bases hr ho base hbase
    obtain ⟨z, hz1, hz2, hz3⟩ := hp.level
    have hat : ∀ dz, z + dz ≤ j.opSafeHeight → ∀ e ∈ base, EdgeAt (fun z => z + dz ≤ j.opSafeHeight) e := by
      intro dz hdz e he
      have hl := hz3 e he
      exact ⟨by rw [hl.start]; exact hdz, by rw [hl.fin]; exact hdz, fun p => by rw [hl.param p]; exact hdz,
        fun d => by rw [hl.len d]; exact hdz⟩
    refine ⟨hbase, ?_⟩
    rcases layers64_of hk hc hp.box hf with ⟨h0, rfl⟩ | ⟨s, n, rfl, hpos, hn, rfl⟩
    · refine ⟨.inl ⟨h0, rfl⟩, ?_⟩
      intro w hwm
      cases List.mem_singleton.mp hwm
      exact ⟨0, (raise_zero _).symm, hat 0 (by linarith)⟩
    · refine ⟨.inr ⟨s, rfl, hpos, hn.near hpos hc.size (hc.step s rfl).2 hc.gap hc.tol⟩, ?_⟩
      intro w hwm
      obtain ⟨k, hkm, rfl⟩ := List.mem_map.mp hwm
      rw [List.mem_reverse, List.mem_range] at hkm
      refine ⟨_, rfl, hat _ ?_⟩
      rcases Nat.eq_zero_or_pos k with rfl | hk1
      · rw [Nat.cast_zero, mul_zero, b64_zero]; linarith
      · have hc1 := hn.count
        have g1 := abs_le.mp hz1
        have g2 := abs_le.mp (hn.height k (by omega))
        have g3 := hn.low k hk1 (by omega)
        have g4 := hc.small
        have g5 := hc.gap
        have g6 := hn.box k (by omega)
        obtain ⟨n', k1, k2, k3, k4⟩ := profileLayers64_list hk hpos.ne' hf
        have hnn : n' = n := by
          have := congrArg List.length k2
          simpa using this.symm
        subst hnn
        have g7 := k3 k hk1 (by omega)
        have g8 := hp.box _ _ (le_b64 isDouble_zero (by positivity)) (by
          have hk' : (k : ℚ) * s ≤ 101 * s := mul_le_mul_of_nonneg_right (by exact_mod_cast (by omega : k ≤ 101)) hpos.le
          have hm : heightError L ≤ 1 * L := mul_le_mul_of_nonneg_right (by norm_num) (by linarith [hc.size])
          have := (hc.step s rfl).2
          linarith [g2.2]) (raised_up (b64 (s * k)) base)
        have g9 := abs_le.mp g8
        have := milli_below
        linarith [g9.1, g1.1]
  have hall : ∀ w ∈ lss.flatten, ∃ b ∈ bases, ∃ dz, w = b.map (Edge.up dz) ∧
      ∀ e ∈ b, EdgeAt (fun z => z + dz ≤ j.opSafeHeight) e := by
    intro w hwm
    obtain ⟨l, hl, hwl⟩ := List.mem_flatten.mp hwm
    obtain ⟨b, -, hbm, -, hb⟩ := forall2_right hlay hl
    obtain ⟨dz, h1, h2⟩ := hb w hwl
    exact ⟨b, hbm, dz, h1, h2⟩
  have hv : ∀ w ∈ lss.flatten, NearestIsVertex cad w := by
    intro w hwm
    obtain ⟨b, hbm, dz, rfl, -⟩ := hall w hwm
    exact (hw r bases hr ho b hbm).vertex dz
  have hok : ∀ w ∈ lss.flatten, WireOK w := by
    intro w hwm
    obtain ⟨b, hbm, dz, rfl, -⟩ := hall w hwm
    exact wireOK_up (hw r bases hr ho b hbm).ok dz
  constructor
  · have h' := h
    rw [routeWires_vertex hv] at h'
    obtain ⟨cs', g1, g2⟩ := C72_wires_connected_partial cad.veq (fun _ _ => none) j lss.flatten none none hok
      (by intro w _ v h hh; cases hh) (by intro w _ v h hh; cases hh)
      (by
        intro w hwm
        obtain ⟨b, hbm, dz, rfl, hz⟩ := hall w hwm
        refine ⟨chained_up (hw r bases hr ho b hbm).chained dz, by simp, ?_⟩
        intro e he
        obtain ⟨e0, he0, rfl⟩ := List.mem_map.mp he
        have hl := (hz e0 he0).len (if e0.reversed then 1 - 0 else 0)
        rw [travel_up]
        exact hl)
    rw [h'] at g1
    cases g1
    exact g2
  · obtain ⟨bs, h4, h5⟩ := routeWires_whole (veq := cad.veq) (search := cad.search) (j := j) (ws := lss.flatten) hv hok
    rw [h4] at h
    cases h
    obtain ⟨blocks, rfl, h6⟩ := forall₂_flatten_left h5
    refine ⟨r, bases, hr, ho, blocks, rfl, ?_⟩
    refine (forall₂_trans hlay h6).imp ?_
    rintro base block ⟨layers, hlm, ⟨-, g1, -⟩, g3⟩
    exact ⟨layers, g1, fun w hwm => hok w (List.mem_flatten.mpr ⟨layers, hlm, hwm⟩), g3⟩

theorem profiles64_cut {cad : Cad} {j : Job} (hk : KeepsBelow cad j.top) {wires : List (List Edge)} {offset L τ tol : ℚ}
    {stepdown : Option ℚ} {cs : List Motion} (hc : Steps64 stepdown L τ tol) (hsafe : 0 ≤ j.opSafeHeight)
    (h : profiles64 cad j offset stepdown wires = .ok cs)
    (hw : ∀ w ∈ wires, EachContour64 cad j offset w (PlainContour64 cad j τ (2 * L))) :
    (∀ p, Tracks p cs) ∧ ∃ css, cs = List.flatten css ∧
      List.Forall₂ (CutsProfile64 cad j offset (heightError L) tol stepdown) wires css := by
  obtain ⟨css, hm, h⟩ := bind_ok.mp h
  cases h
  refine ⟨tracks_flatten ?_, css, rfl, ?_⟩
  · intro b hbm
    obtain ⟨w, hwm, hp⟩ := mapE_mem hm hbm
    exact tracks_connected (profile64_moves hk hc hsafe hp (hw w hwm)).1
  · exact forall₂_imp_mem (mapE_ok.mp hm) (fun w hwm cs h1 => (profile64_moves hk hc hsafe h1 (hw w hwm)).2)

theorem runs_profile64 {cad : Cad} {j : Job} {offset ε tol : ℚ} {stepdown : Option ℚ} {wire : List Edge} {cs : List Motion}
    {evs : List Event} {r : ℚ} (hr : j.toolRadius = some r) (h : List.Forall₂ Runs evs cs)
    (hc : CutsProfile64 cad j offset ε tol stepdown wire cs) :
    RunsProfile64 cad j.top j.feed.value r offset ε tol stepdown wire evs := by
  obtain ⟨r', bases, hr', ho, blocks, rfl, hb⟩ := hc
  rw [hr] at hr'
  cases hr'
  obtain ⟨ev1, rfl, g1⟩ := forall₂_flatten_left h.flip
  obtain ⟨ev2, rfl, g2⟩ := forall₂_flatten_left g1
  refine ⟨bases, ho, ev2, rfl, ?_⟩
  refine (forall₂_trans hb g2).imp ?_
  rintro base evb ⟨block, -, ⟨layers, hp, hok, hw⟩, hev⟩
  refine ⟨layers, hp, ?_⟩
  refine forall₂_imp_mem (forall₂_trans hw hev) ?_
  rintro w hwm evs ⟨cs, -, k1, k2⟩
  exact runs_wire (hok w hwm) k2.flip k1

theorem runs_profiles64 {cad : Cad} {j : Job} {offset ε tol : ℚ} {stepdown : Option ℚ} {r : ℚ} (hr : j.toolRadius = some r)
    {wires : List (List Edge)} {css : List (List Motion)} {evs : List Event} (h : List.Forall₂ Runs evs css.flatten)
    (hc : List.Forall₂ (CutsProfile64 cad j offset ε tol stepdown) wires css) :
    ∃ evss, evs = List.flatten evss ∧ List.Forall₂ (RunsProfile64 cad j.top j.feed.value r offset ε tol stepdown) wires evss := by
  obtain ⟨evss, rfl, g⟩ := forall₂_flatten_left h.flip
  refine ⟨evss, rfl, ?_⟩
  refine (forall₂_trans hc g).imp ?_
  rintro w ev ⟨cs, -, h1, h2⟩
  exact runs_profile64 hr h2.flip h1

/-! ### How much is taken at once -/

theorem stepOK_le {top s s' : ℚ} (hs : s ≤ s') {pre : List Motion} {c : Motion} (h : StepOK top s pre c) : StepOK top s' pre c := by
  have ho : ∀ {a b : Vec}, OverBy s a b → OverBy s' a b := fun h => ⟨h.1, h.2.1, h.2.2.trans (by linarith)⟩
  obtain ⟨b, hb, h⟩ := h
  refine ⟨b, hb, ?_⟩
  rcases h with ⟨h1, h2⟩ | ⟨h1, c', hc', k1, a', k2, k3⟩ | ⟨a, ha, c', hc', k1, k2, k3, a', b', k4, k5, k6, k7⟩
  · refine .inl ⟨by linarith, ?_⟩
    rcases h2 with h2 | ⟨a, ha, h2⟩
    · exact .inl h2
    · exact .inr ⟨a, ha, by linarith⟩
  · exact .inr (.inl ⟨h1, c', hc', k1, a', k2, ho k3⟩)
  · exact .inr (.inr ⟨a, ha, c', hc', k1, k2, k3, a', b', k4, k5, ho k6, ho k7⟩)

/-- As `blocks_below`, for passes at any heights that are at most `s` apart. -/
theorem blocks_below_at {cad : Cad} {j : Job} {base : List Edge} (hok : WireOK base) (hs : SteadyEnds cad base) {s top : ℚ}
    (z : ℕ → ℚ) (m : ℕ) (hz : ∀ k < m, z (k + 1) - z k ≤ s) :
    ∀ {b' : List Motion} {bs : List (List Motion)}, WireBlock cad j (base.map (Edge.up (z m))) b' →
      List.Forall₂ (WireBlock cad j) ((List.range m).reverse.map (fun k : ℕ => base.map (Edge.up (z k)))) bs →
      ∀ pre c post, bs.flatten = pre ++ c :: post → c.kind.mot ≠ .rapid → StepOK top s (b' ++ pre) c := by
  induction m with
  | zero =>
    intro b' bs _ h pre c post he
    cases h
    simp at he
  | succ m ih =>
    intro b' bs h' h pre c post he hk
    rw [List.range_succ, List.reverse_append, List.reverse_singleton, List.singleton_append, List.map_cons] at h
    cases h with
    | cons h1 h2 =>
      rename_i b bs
      rw [List.flatten_cons] at he
      have hz' : ∀ k < m, z (k + 1) - z k ≤ s := fun k hk => hz k (by omega)
      rcases List.append_eq_append_iff.mp he with ⟨u, hu1, hu2⟩ | ⟨u, hu1, hu2⟩
      · have := ih hz' h1 h2 u c post hu2 hk
        rw [hu1]
        exact stepOK_mono (List.subset_append_right _ _) this
      · cases u with
        | nil =>
          simp only [List.append_nil] at hu1
          simp only [List.nil_append] at hu2
          have := ih hz' h1 h2 [] c post hu2.symm hk
          rw [← hu1]
          exact stepOK_mono (by simp) this
        | cons x u =>
          simp only [List.cons_append, List.cons.injEq] at hu2
          obtain ⟨rfl, -⟩ := hu2
          have hup : base.map (Edge.up (z (m + 1))) = (base.map (Edge.up (z m))).map (Edge.up (z (m + 1) - z m)) := by
            rw [map_up_up]; ring_nf
          rw [hup] at h'
          exact stepOK_le (hz m (by omega)) (stepOK_mono (List.subset_append_left _ _)
            (block_next (wireOK_up hok _) (steady_up hs _) h' h1 c (by rw [hu1]; simp) hk))

/-- C143 (as far as it holds, see `C143_violated`), how much one profile takes at once. -/
theorem C143_moves_partial {cad : Cad} {j : Job} (hk : KeepsBelow cad j.top) {wire : List Edge} {offset L τ tol s : ℚ}
    {cs : List Motion} (hc : Steps64 (some s) L τ tol) (hs : 0 < s) (h : profile64 cad j wire offset (some s) = .ok cs)
    (hw : EachContour64 cad j offset wire (fun b => PlainContour64 cad j τ (2 * L) b ∧ SteadyEnds cad b)) :
    StepsDown (-1 / 1000) (s + tol) cs := by
  obtain ⟨r, bases, lss, hr, ho, h2, h⟩ := profile64_layers h
  have hlay : List.Forall₂ (fun base layers => base ∈ bases ∧ ∃ n : ℕ, Layers64 cad L τ s base n ∧
      layers = (List.range (n + 1)).reverse.map (fun k : ℕ => base.map (Edge.up (b64 (s * k))))) bases lss := by
    refine forall₂_imp_mem h2 ?_
    intro base hbase layers hf
    exact ⟨hbase, profileLayers64_layers hk hs hc.size (hc.step s rfl).2 (hw r bases hr ho base hbase).1.box hf⟩
  have hall : ∀ w ∈ lss.flatten, w ≠ [] ∧ NearestIsVertex cad w := by
    intro w hwm
    obtain ⟨l, hl, hwl⟩ := List.mem_flatten.mp hwm
    obtain ⟨base, -, hbase, n, -, rfl⟩ := forall2_right hlay hl
    obtain ⟨k, -, rfl⟩ := List.mem_map.mp hwl
    have hp := (hw r bases hr ho base hbase).1
    exact ⟨by simpa using hp.ok.nonempty, hp.vertex _⟩
  rw [routeWires_vertex (fun w hw => (hall w hw).2)] at h
  obtain ⟨bs, rfl, hbs⟩ := routeWires_blocks (fun w hw => (hall w hw).1) h
  obtain ⟨bss, rfl, hbss⟩ := forall₂_flatten_left hbs
  rw [List.flatten_flatten]
  refine stepsDown_flatten ?_
  intro x hx
  obtain ⟨bs, hbsm, rfl⟩ := List.mem_map.mp hx
  obtain ⟨layers, hlm, hblocks⟩ := forall2_right hbss hbsm
  obtain ⟨base, -, hbase, n, hn, rfl⟩ := forall2_right hlay hlm
  obtain ⟨hp, hends⟩ := hw r bases hr ho base hbase
  obtain ⟨z, hz1, -, hz3⟩ := hp.level
  have hcount := hn.count
  have he := heightError_pos hc.size
  have htol := hc.tol
  have hgap := hc.gap
  have hstep : ∀ k < n, b64 (s * (k + 1 : ℕ)) - b64 (s * k) ≤ s + tol := by
    intro k hk'
    have g1 := abs_le.mp (hn.height (k + 1) (by omega))
    have g2 := abs_le.mp (hn.height k (by omega))
    have g3 : ((k + 1 : ℕ) : ℚ) * s = k * s + s := by push_cast; ring
    rw [g3] at g1
    linarith [g1.2, g2.1]
  rw [List.range_succ, List.reverse_append, List.reverse_singleton, List.singleton_append, List.map_cons] at hblocks
  cases hblocks with
  | cons g1 g2 =>
    rename_i b bs
    intro pre c post he' hk'
    rw [List.flatten_cons] at he'
    have hfirst : ∀ c ∈ b, c.kind.mot ≠ .rapid → StepOK (-1 / 1000) (s + tol) [] c := by
      refine block_first ?_ g1
      intro e hem
      obtain ⟨x, hx, rfl⟩ := List.mem_map.mp hem
      have hl := hz3 x hx
      have a1 := abs_le.mp hz1
      have a2 := abs_le.mp (hn.height n (by omega))
      have a3 := hn.high
      have key : ∀ y, y = z → -1 / 1000 ≤ y + b64 (s * n) + (s + tol) := by rintro y rfl; linarith [a1.2, a2.1]
      exact ⟨key _ hl.start, key _ hl.fin, fun p => key _ (hl.param p), fun d => key _ (hl.len d)⟩
    have hbelow := blocks_below_at (cad := cad) (j := j) (top := -1 / 1000) hp.ok hends (fun k : ℕ => b64 (s * k)) n hstep g1 g2
    rcases List.append_eq_append_iff.mp he' with ⟨u, hu1, hu2⟩ | ⟨u, hu1, hu2⟩
    · rw [hu1]
      exact hbelow u c post hu2 hk'
    · cases u with
      | nil =>
        simp only [List.append_nil] at hu1
        simp only [List.nil_append] at hu2
        have := hbelow [] c post hu2.symm hk'
        rw [← hu1]
        simpa using this
      | cons x u =>
        simp only [List.cons_append, List.cons.injEq] at hu2
        obtain ⟨rfl, -⟩ := hu2
        exact stepOK_mono (by simp) (hfirst c (by rw [hu1]; simp) hk')

theorem profiles64_step {cad : Cad} {j : Job} (hk : KeepsBelow cad j.top) {wires : List (List Edge)} {offset L τ tol s : ℚ}
    {cs : List Motion} (hc : Steps64 (some s) L τ tol) (hs : 0 < s) (h : profiles64 cad j offset (some s) wires = .ok cs)
    (hw : ∀ w ∈ wires, EachContour64 cad j offset w (fun b => PlainContour64 cad j τ (2 * L) b ∧ SteadyEnds cad b)) :
    StepsDown (-1 / 1000) (s + tol) cs := by
  obtain ⟨css, hm, h⟩ := bind_ok.mp h
  cases h
  refine stepsDown_flatten ?_
  intro b hbm
  obtain ⟨w, hwm, hp⟩ := mapE_mem hm hbm
  exact C143_moves_partial hk hc hs hp (hw w hwm)

/-! ### On the machine -/

/-- C143 for `wire_profile` (as far as it holds, see `C143_violated`).  In the program of any job with a wire profile (without tabs)
computed in floating point in it, the moves of the machine in the part of the operation are: for each given wire, for each contour at the
given distance from it, for each pass an approach, then along all edges of the pass, in order, with the spindle running and the
operation's feed in force. -/
theorem C143_wire_profile_partial {cad : Cad} {wires : List (List Edge)} {offset r L τ tol : ℚ} {stepdown : Option ℚ}
    {tool : Option Tool} {j0 j1 j2 jf : Job} {before after : List Request} (m : Machine) (h0 : InitOK j0)
    (hn : ∀ v, j0.toolNumber = some v → NumOK v)
    (hok : ChainOK j0 (before ++ wireProfileRequest64 cad wires offset stepdown tool :: after))
    (h1 : j0.chain before = .ok j1) (h2 : (j1.call (wireProfileRequest64 cad wires offset stepdown tool)).2 = .ok j2)
    (h3 : j2.chain after = .ok jf) (hend : m.ended = false) (htool : ∀ n, j0.toolNumber = some n → m.tool = some n.value)
    (hk : KeepsBelow cad j0.top) (hc : Steps64 stepdown L τ tol) (hsafe : 0 ≤ j0.opSafeHeight)
    {j : Job} (hj : (j1.updateTool tool).2 = j) (hr : j.toolRadius = some r)
    (hw : ∀ w ∈ wires, EachContour64 cad j offset w (PlainContour64 cad j τ (2 * L))) :
    ∃ t m' pre part post evss, jf.toGcode = .ok t ∧ runText m t = some (m', pre ++ part ++ post) ∧
      part.filter isMove = List.flatten evss ∧
      List.Forall₂ (RunsProfile64 cad j0.top j.feed.value r offset (heightError L) tol stepdown) wires evss := by
  obtain ⟨t, m', pre, part, post, cs, ht, hrun, hgen, -, hfol, hpart⟩ := C94_followed m h0 hn hok h1 h2 h3 hend htool
  subst hj
  have hbase : SameBase j0 (j1.updateTool tool).2 := updateTool_base (chain_base (show SameBase j0 j0 from rfl) h1) _
  have htop : j0.top = (j1.updateTool tool).2.top := by rw [hbase]
  have hsafe' : j0.opSafeHeight = (j1.updateTool tool).2.opSafeHeight := by rw [hbase]
  obtain ⟨htr, css, rfl, hcss⟩ := profiles64_cut (htop ▸ hk) hc (hsafe' ▸ hsafe) hgen hw
  obtain ⟨evss, he, hev⟩ := runs_profiles64 hr (runs_of (hfol (htr _)) (fun e he => (hpart e he).2)) hcss
  exact ⟨t, m', pre, part, post, evss, ht, hrun, he, by rw [htop]; exact hev⟩

/-- C143 for `wire_profile`, how much the machine takes at once: never more than the stepdown and `tol`, the errors of the kernel's boxes
and of rounding (and a thousandth for printing), counted from a thousandth below the surface. -/
theorem C143_step_partial {cad : Cad} {wires : List (List Edge)} {offset L τ tol s : ℚ}
    {tool : Option Tool} {j0 j1 j2 jf : Job} {before after : List Request} (m : Machine) (h0 : InitOK j0)
    (hn : ∀ v, j0.toolNumber = some v → NumOK v)
    (hok : ChainOK j0 (before ++ wireProfileRequest64 cad wires offset (some s) tool :: after))
    (h1 : j0.chain before = .ok j1) (h2 : (j1.call (wireProfileRequest64 cad wires offset (some s) tool)).2 = .ok j2)
    (h3 : j2.chain after = .ok jf) (hend : m.ended = false) (htool : ∀ n, j0.toolNumber = some n → m.tool = some n.value)
    (hk : KeepsBelow cad j0.top) (hc : Steps64 (some s) L τ tol) (hs : 0 < s) (hsafe : 0 ≤ j0.opSafeHeight)
    {j : Job} (hj : (j1.updateTool tool).2 = j)
    (hw : ∀ w ∈ wires, EachContour64 cad j offset w (fun b => PlainContour64 cad j τ (2 * L) b ∧ SteadyEnds cad b)) :
    ∃ t m' pre part post cs, jf.toGcode = .ok t ∧ runText m t = some (m', pre ++ part ++ post) ∧
      profiles64 cad j offset (some s) wires = .ok cs ∧ (part.filter isMove).length = cs.length ∧
      FeedsDown (-1 / 1000) (s + tol + 1 / 1000) part := by
  obtain ⟨t, m', pre, part, post, cs, ht, hrun, hgen, hperf, hfol, hpart⟩ := C94_followed m h0 hn hok h1 h2 h3 hend htool
  subst hj
  have hbase : SameBase j0 (j1.updateTool tool).2 := updateTool_base (chain_base (show SameBase j0 j0 from rfl) h1) _
  have htop : j0.top = (j1.updateTool tool).2.top := by rw [hbase]
  have hsafe' : j0.opSafeHeight = (j1.updateTool tool).2.opSafeHeight := by rw [hbase]
  obtain ⟨htr, -⟩ := profiles64_cut (htop ▸ hk) hc (hsafe' ▸ hsafe) hgen (fun w hwm r bases a b x hx => (hw w hwm r bases a b x hx).1)
  exact ⟨t, m', pre, part, post, cs, ht, hrun, hgen, hperf.length_eq,
    feedsDown_follows (profiles64_step (htop ▸ hk) hc hs hgen hw) (hfol (htr _))⟩

theorem profilesOpt64_runs {cad : Cad} {j : Job} (hk : KeepsBelow cad j.top) {wires : List (List Edge)} {L τ tol : ℚ}
    {offset : Option ℚ} {stepdown : Option ℚ} {cs : List Motion} (hc : Steps64 stepdown L τ tol) (hsafe : 0 ≤ j.opSafeHeight)
    (h : profilesOpt64 cad j offset stepdown wires = .ok cs)
    (hw : ∀ o, offset = some o → ∀ w ∈ wires, EachContour64 cad j o w (PlainContour64 cad j τ (2 * L))) {r : ℚ}
    (hr : j.toolRadius = some r) :
    (∀ p, Tracks p cs) ∧ ∀ evs, List.Forall₂ Runs evs cs →
      ∃ evss, evs = List.flatten evss ∧ RunsProfiles64 cad j.top j.feed.value r (heightError L) tol offset stepdown wires evss := by
  cases offset with
  | none =>
    cases h
    refine ⟨fun _ => trivial, fun evs h => ?_⟩
    cases h
    exact ⟨[], rfl, rfl⟩
  | some o =>
    obtain ⟨htr, css, rfl, hcss⟩ := profiles64_cut hk hc hsafe h (hw o rfl)
    exact ⟨htr, fun evs h => runs_profiles64 hr h hcss⟩

/-- C143 for `profile` (as far as it holds, see `C143_violated`): first the inner wires of the given faces, then the outer wires and the
given wires, each with its own offset. -/
theorem C143_profile_partial {cad : Cad} {shapes : List Shape} {outerOffset innerOffset : Option ℚ} {r L τ tol : ℚ}
    {stepdown : Option ℚ} {tool : Option Tool} {j0 j1 j2 jf : Job} {before after : List Request} (m : Machine) (h0 : InitOK j0)
    (hn : ∀ v, j0.toolNumber = some v → NumOK v)
    (hok : ChainOK j0 (before ++ profileRequest64 cad shapes outerOffset innerOffset stepdown tool :: after))
    (h1 : j0.chain before = .ok j1)
    (h2 : (j1.call (profileRequest64 cad shapes outerOffset innerOffset stepdown tool)).2 = .ok j2)
    (h3 : j2.chain after = .ok jf) (hend : m.ended = false) (htool : ∀ n, j0.toolNumber = some n → m.tool = some n.value)
    (hk : KeepsBelow cad j0.top) (hc : Steps64 stepdown L τ tol) (hsafe : 0 ≤ j0.opSafeHeight)
    {j : Job} (hj : (j1.updateTool tool).2 = j) (hr : j.toolRadius = some r)
    (hwo : ∀ o, outerOffset = some o → ∀ w ∈ outerWires shapes, EachContour64 cad j o w (fun b =>
      PlainContour64 cad j τ (2 * L) b ∧ SteadyEnds cad b))
    (hwi : ∀ o, innerOffset = some o → ∀ w ∈ innerWires shapes, EachContour64 cad j o w (fun b =>
      PlainContour64 cad j τ (2 * L) b ∧ SteadyEnds cad b)) :
    ∃ t m' pre part post inner outer, jf.toGcode = .ok t ∧ runText m t = some (m', pre ++ part ++ post) ∧
      part.filter isMove = List.flatten inner ++ List.flatten outer ∧
      RunsProfiles64 cad j0.top j.feed.value r (heightError L) tol innerOffset stepdown (innerWires shapes) inner ∧
      RunsProfiles64 cad j0.top j.feed.value r (heightError L) tol outerOffset stepdown (outerWires shapes) outer ∧
      ∀ s, stepdown = some s → 0 < s → FeedsDown (-1 / 1000) (s + tol + 1 / 1000) part := by
  obtain ⟨t, m', pre, part, post, cs, ht, hrun, hgen, -, hfol, hpart⟩ := C94_followed m h0 hn hok h1 h2 h3 hend htool
  subst hj
  have hbase : SameBase j0 (j1.updateTool tool).2 := updateTool_base (chain_base (show SameBase j0 j0 from rfl) h1) _
  have htop : j0.top = (j1.updateTool tool).2.top := by rw [hbase]
  have hsafe' : j0.opSafeHeight = (j1.updateTool tool).2.opSafeHeight := by rw [hbase]
  change (do
    let (outers, inners) ← extractWires shapes
    let a ← profilesOpt64 cad (j1.updateTool tool).2 innerOffset stepdown inners
    let b ← profilesOpt64 cad (j1.updateTool tool).2 outerOffset stepdown outers
    Except.ok (a ++ b)) = .ok cs at hgen
  obtain ⟨⟨os, is⟩, hx, hgen⟩ := bind_ok.mp hgen
  obtain ⟨a, ha, hgen⟩ := bind_ok.mp hgen
  obtain ⟨b, hb', hgen⟩ := bind_ok.mp hgen
  cases hgen
  have hsh : Shape.other ∉ shapes := by
    intro ho
    rw [(extractWires_eq shapes).1 ho] at hx
    cases hx
  rw [(extractWires_eq shapes).2 hsh] at hx
  cases hx
  have key : ∀ {s : ℚ} {o : Option ℚ} {ws : List (List Edge)} {cs : List Motion}, stepdown = some s → 0 < s →
      profilesOpt64 cad (j1.updateTool tool).2 o stepdown ws = .ok cs →
      (∀ o', o = some o' → ∀ w ∈ ws, EachContour64 cad (j1.updateTool tool).2 o' w (fun b =>
        PlainContour64 cad (j1.updateTool tool).2 τ (2 * L) b ∧ SteadyEnds cad b)) → StepsDown (-1 / 1000) (s + tol) cs := by
    intro s o ws cs hst hs h hw
    subst hst
    cases o with
    | none => cases h; intro pre c post he; simp at he
    | some o => exact profiles64_step (htop ▸ hk) hc hs h (hw o rfl)
  obtain ⟨t1, k1⟩ := profilesOpt64_runs (htop ▸ hk) hc (hsafe' ▸ hsafe) ha
    (fun o ho w hwm r bases a b x hx => (hwi o ho w hwm r bases a b x hx).1) hr
  obtain ⟨t2, k2⟩ := profilesOpt64_runs (htop ▸ hk) hc (hsafe' ▸ hsafe) hb'
    (fun o ho w hwm r bases a b x hx => (hwo o ho w hwm r bases a b x hx).1) hr
  have hfol' := hfol (tracks_append.mpr ⟨t1 _, t2 _⟩)
  obtain ⟨e1, e2, g1, g2, hsplit⟩ := forall₂_append_left (runs_of hfol' (fun e he => (hpart e he).2)).flip
  obtain ⟨inner, rfl, hin⟩ := k1 e1 g1.flip
  obtain ⟨outer, rfl, hout⟩ := k2 e2 g2.flip
  exact ⟨t, m', pre, part, post, inner, outer, ht, hrun, hsplit, by rw [htop]; exact hin, by rw [htop]; exact hout,
    fun s hst hs => feedsDown_follows (stepsDown_append (key hst hs ha hwi) (key hst hs hb' hwo)) hfol'⟩

/-- The conditions in numbers: boxes that are right up to 0.0001 mm, and a stepdown of at most 10 m. -/
theorem steps64_millimetres {s : ℚ} (h0 : 0 ≤ s) (h1 : s ≤ 10000) : Steps64 (some s) 1010000 (1 / 10000) (1 / 4000) where
  size := by norm_num
  step := by rintro _ ⟨⟩; exact ⟨h0, by linarith⟩
  gap := by norm_num
  small := by norm_num
  tol := by unfold heightError; norm_num

/-! ### Where it fails -/

/-- C143 is false where the job's top plane, taken in world coordinates, contains a pass in job coordinates, as C122
(`C122_violated`): the tool begins with a cut of 4 instead of 1. -/
theorem C143_violated : ∃ j2 t m' evs, BoxMoves flatCad ∧
    (lowJob.call (wireProfileRequest64 flatCad [lowSquare] 1 (some 1) none)).2 = .ok j2 ∧ j2.toGcode = .ok t ∧
    runText {} t = some (m', evs) ∧ ∀ s < 3, ¬ FeedsDown (-1 / 1000) s evs := by
  have hw : (match (wireProfileRequest64 flatCad [lowSquare] 1 (some 1) none).gen lowJob with
      | .ok cs => cs.all goodMove && deepFirst ((lowJob.addOperation "Wire Profile".toList (cs.map .motion)).intended {}).2
      | .error _ => false) = true := by decide +kernel
  obtain ⟨cs, hg, hr, hc⟩ := call_good (j := lowJob) (r := wireProfileRequest64 flatCad [lowSquare] 1 (some 1) none)
    (by decide +kernel) rfl (by unfold SafeName; decide) (by
      cases hg : (wireProfileRequest64 flatCad [lowSquare] 1 (some 1) none).gen lowJob with
      | error e => rw [hg] at hw; cases hw
      | ok cs => rw [hg] at hw; exact (Bool.and_eq_true _ _ ▸ hw).1)
  rw [hg] at hw
  have hd := (Bool.and_eq_true _ _ ▸ hw).2
  have h0 : InitOK lowJob := ⟨rfl, by unfold SafeName; decide, numOK_int _, by rintro v ⟨⟩⟩
  obtain ⟨t, ht, hrun⟩ := run_job {} _ (inv_reach (inv_init h0 (by rintro v ⟨⟩)) (.result _ .init hr hc)).ok rfl
  exact ⟨_, t, _, _, flatCad_boxMoves, hc, ht, hrun, fun s hs => deepFirst_not hd hs⟩

/-! ### An example of the conditions -/

theorem roundSlot_offset64 {r : ℚ} {bases : List (List Edge)}
    (h2 : offsetWire64 gapCad (roundSlot.map (Edge.toLocal (twoJob.updateTool none).2.top)) (b64 (1 * r)) = .ok bases) :
    bases = [roundSlot] := by
  have hval : offsetValid64 gapCad roundSlot = true := by decide +kernel
  have h : offsetWire64 gapCad (roundSlot.map (Edge.toLocal twoJob.top)) (b64 (1 * r)) = .ok bases := h2
  rw [show roundSlot.map (Edge.toLocal twoJob.top) = roundSlot from by
    rw [show Edge.toLocal twoJob.top = id from funext toLocal_xy, List.map_id]] at h
  change Except.ok (circleBugWorkaround gapCad roundSlot ([roundSlot].filter (offsetValid64 gapCad))) = _ at h
  rw [show [roundSlot].filter (offsetValid64 gapCad) = [roundSlot] from by simp [hval]] at h
  cases h
  rfl

theorem roundSlot_plain64 {j : Job} (hj : 0 ≤ j.opSafeHeight) : PlainContour64 gapCad j (1 / 10000) 2020000 roundSlot where
  ok := roundSlot_plain.ok
  chained := roundSlot_plain.chained
  vertex := by intro dz v h hs; cases hs
  box := gapCad_box roundSlot_plain.ok.nonempty (by decide +kernel)
  level := by
    have hz : flatCad.zmin roundSlot = -1 := by decide +kernel
    exact ⟨-1, by decide +kernel, by linarith, fun e he => hz ▸ roundSlot_plain.level e he⟩

/-- The hypotheses of C143: the slot with the round end at depth 1 with a stepdown of 0.3 (rounded), on a kernel that rounds; the four
passes are run, and nowhere more than 0.3 and 1/800 is taken at once. -/
example : ∃ j2 t m' pre part post, ∃ cs : List Motion,
    (twoJob.call (wireProfileRequest64 gapCad [roundSlot] 1 (some (b64 (3 / 10))) none)).2 = .ok j2 ∧
    j2.toGcode = .ok t ∧ runText {} t = some (m', pre ++ part ++ post) ∧ (part.filter isMove).length = cs.length ∧ cs.length = 29 ∧
    FeedsDown (-1 / 1000) (b64 (3 / 10) + 1 / 4000 + 1 / 1000) part := by
  obtain ⟨cs, hg, hr, hc⟩ := call_good (j := twoJob) (r := wireProfileRequest64 gapCad [roundSlot] 1 (some (b64 (3 / 10))) none)
    (by decide +kernel) rfl (by unfold SafeName; decide) (by decide +kernel)
  have hlen : cs.length = 29 := by
    have : (match (wireProfileRequest64 gapCad [roundSlot] 1 (some (b64 (3 / 10))) none).gen twoJob with
      | .ok cs => decide (cs.length = 29) | .error _ => false) = true := by decide +kernel
    rw [hg] at this
    simpa using this
  obtain ⟨t, m', pre, part, post, ds, a1, a2, a3, a4, a5⟩ := C143_step_partial (cad := gapCad) (wires := [roundSlot]) (offset := 1)
    (s := b64 (3 / 10)) (tool := none) (before := []) (after := []) {} twoJob_ok (by rintro v ⟨⟩)
    (show ChainOK twoJob [_] from ⟨hr, fun _ _ => trivial⟩) rfl hc rfl rfl (by rintro n ⟨⟩) gapCad_keepsBelow
    (steps64_millimetres (by decide +kernel) (by decide +kernel)) (by decide +kernel) (by decide +kernel) rfl (by
      intro w hw r bases h1 h2 b hb
      cases List.mem_singleton.mp hw
      cases roundSlot_offset64 h2
      cases List.mem_singleton.mp hb
      have h : (2 : ℚ) * 1010000 = 2020000 := by norm_num
      rw [h]
      exact ⟨roundSlot_plain64 (by decide +kernel), roundSlot_steady⟩)
  have hg' : profiles64 gapCad twoJob 1 (some (b64 (3 / 10))) [roundSlot] = .ok cs := hg
  have a3' : profiles64 gapCad twoJob 1 (some (b64 (3 / 10))) [roundSlot] = .ok ds := a3
  rw [hg'] at a3'
  cases a3'
  exact ⟨_, t, m', pre, part, post, cs, hc, a1, a2, a4, hlen, a5⟩

end CQ
