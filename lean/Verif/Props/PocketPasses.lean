import Verif.Props.PocketFill

/-! # C43, C44: stepping down in a pocket -/

namespace CQ

/-- The outlines and depths of sequences: what is going to be cut. -/
def outlinesOf (seqs : List (List PathFace)) : List (List (List Pt × ℚ)) :=
  seqs.map (fun s => s.map (fun f => (f.outer, f.depth)))

/-- `a` and `b` are depths of consecutive passes with a stepdown of `s`. -/
def NextPass (s a b : ℚ) : Prop := b < a ∧ a - b ≤ s

/-! ### C43 -/

theorem passes_chain {s : ℚ} (hs : 0 < s) (stop : ℚ) : ∀ (n : ℕ) (S : ℚ), (∀ i : ℕ, i ≤ n → stop < S - i * s) →
    S - n * s - stop ≤ s →
    List.IsChain (NextPass s) (S :: ((List.range n).map (fun i : ℕ => (S - s) + i * (-s)) ++ [stop])) := by
  intro n
  induction n with
  | zero =>
    intro S h1 h2
    have := h1 0 le_rfl
    simp at this h2
    simp [NextPass]
    constructor <;> linarith
  | succ n ih =>
    intro S h1 h2
    rw [List.range_succ_eq_map]
    simp only [List.map_cons, List.map_map, List.cons_append]
    refine List.IsChain.cons_cons ?_ ?_
    · constructor <;> (simp; try linarith)
    · have := ih (S - s) (fun i hi => by have := h1 (i + 1) (by omega); push_cast at this; linarith)
        (by push_cast at h2; linarith)
      simp only [Nat.cast_zero, zero_mul, add_zero]
      have e : ((fun i : ℕ => (S - s) + i * (-s)) ∘ Nat.succ) = fun i : ℕ => (S - s - s) + i * (-s) := by
        funext i; simp only [Function.comp, Nat.succ_eq_add_one]; push_cast; ring
      rw [e]
      exact this

theorem arange_passes {s : ℚ} (hs : 0 < s) (start stop : ℚ) :
    (stop < start → List.IsChain (NextPass s) (start :: (arange (start - s) stop (-s) ++ [stop]))) ∧
    (start ≤ stop → arange (start - s) stop (-s) = []) := by
  have e : (stop - (start - s)) / -s = (start - stop) / s - 1 := by field_simp; ring
  constructor
  · intro h
    unfold arange
    rw [e]
    have hpos : (0 : ℚ) < (start - stop) / s := by apply div_pos <;> linarith
    set c := ⌈(start - stop) / s - 1⌉ with hc
    have hc0 : 0 ≤ c := by
      have : (-1 : ℚ) < (c : ℚ) := lt_of_lt_of_le (by linarith) (Int.le_ceil _)
      have : (-1 : ℤ) < c := by exact_mod_cast this
      omega
    have hn : ((c.toNat : ℕ) : ℚ) = (c : ℚ) := by exact_mod_cast Int.toNat_of_nonneg hc0
    have h1 : (start - stop) / s - 1 ≤ c := Int.le_ceil _
    have h2 : (c : ℚ) < (start - stop) / s - 1 + 1 := Int.ceil_lt_add_one _
    refine passes_chain hs stop _ start ?_ ?_
    · intro i hi
      have hi' : (i : ℚ) ≤ c := by rw [← hn]; exact_mod_cast hi
      have : (i : ℚ) < (start - stop) / s := by linarith
      rw [lt_div_iff₀ hs] at this
      linarith
    · rw [hn]
      have : (start - stop) / s ≤ c + 1 := by linarith
      rw [div_le_iff₀ hs] at this
      linarith
  · intro h
    unfold arange
    rw [e]
    have : ⌈(start - stop) / s - 1⌉ ≤ 0 := by
      rw [Int.ceil_le]
      have : (start - stop) / s ≤ 0 := by
        apply div_nonpos_of_nonpos_of_nonneg <;> linarith
      push_cast; linarith
    rw [Int.toNat_of_nonpos this]
    rfl

theorem dedup_const {l : List ℚ} {d : ℚ} (hne : l ≠ []) (h : ∀ x ∈ l, x = d) : l.dedup = [d] := by
  have : l = List.replicate l.length d := List.eq_replicate_iff.mpr ⟨rfl, h⟩
  rw [this, List.replicate_dedup]
  simpa using hne

theorem fill_depths {eng : Clipper} {fuel : ℕ} {op : PathFace} {step : ℚ} {precision : ℕ}
    {seqs : List (List PathFace)} (h : fillPocket eng fuel op step precision = .ok seqs) :
    (∀ f ∈ seqs.flatten, f.depth = op.depth) ∧ seqs.flatten ≠ [] ∧ ∀ s ∈ seqs, s ≠ [] := by
  obtain ⟨xs, h1, h2, h3, h4⟩ := C42_complete h
  refine ⟨fun f hf => (h3 f hf).1, ?_, fun s hs => (h4 s hs).1⟩
  intro h0
  rw [h0] at h2
  have := h2.length_eq
  cases h1
  simp at this

theorem applyStepdown_fill {eng : Clipper} {fuel : ℕ} {op : PathFace} {step : ℚ} {precision : ℕ}
    {fill : List (List PathFace)} (h : fillPocket eng fuel op step precision = .ok fill) (start : Option ℚ) (s : ℚ) :
    applyStepdown fill start s = .ok ((arange (start.getD 0 - s) op.depth (-s)).flatMap (fun d =>
        fill.map (fun q => q.map (fun f => f.cloneToDepth d)))) := by
  obtain ⟨h1, h2, -⟩ := fill_depths h
  unfold applyStepdown
  rw [dedup_const (d := op.depth) (by simpa using h2) (by
    intro x hx
    obtain ⟨f, hf, rfl⟩ := List.mem_map.mp hx
    exact h1 f hf)]
  cases start <;> simp

/-- C43.  With a positive stepdown `s` the passes of one region are at the depths `depths`, the last of which is the depth
of the region.  They are strictly decreasing with steps of at most `s`, also from the depth `start` where stepping
starts (the stock surface 0 or the depth of an earlier region that contains this one, see C44); if the region is not
below `start` there is only the final pass.  Each pass cuts the same contours: those of C42. -/
theorem C43_passes {eng : Clipper} {fuel : ℕ} {stepover s : ℚ} {precision : ℕ} {shallower : List PathFace} {op : PathFace}
    {seqs : List (List PathFace)} (hs : 0 < s)
    (h : opSequences eng fuel stepover (some s) precision shallower op = .ok seqs) :
    ∃ fill depths, fillPocket eng fuel op stepover precision = .ok fill ∧
      outlinesOf seqs = depths.flatMap (fun d => (fill.map (fun q => q.map (fun f => (f.outer, d))))) ∧
      depths.getLast? = some op.depth ∧
      let start := (determineStepdownStartDepth eng op shallower).getD 0
      (op.depth < start → List.IsChain (NextPass s) (start :: depths)) ∧ (start ≤ op.depth → depths = [op.depth]) := by
  unfold opSequences at h
  obtain ⟨fill, hf, h⟩ := bind_ok.mp h
  simp only [if_neg hs.ne'] at h
  obtain ⟨stepped, h1, h⟩ := bind_ok.mp h
  rw [applyStepdown_fill hf] at h1
  cases h1
  cases h
  have ha := arange_passes hs ((determineStepdownStartDepth eng op shallower).getD 0) op.depth
  refine ⟨fill, _ ++ [op.depth], hf, ?_, by simp, ha.1, fun h => by rw [ha.2 h]; rfl⟩
  unfold outlinesOf
  rw [List.map_append, List.flatMap_append, List.map_flatMap]
  congr 1
  · congr 1
    funext d
    rw [List.map_map]
    apply List.map_congr_left
    intro q _
    simp only [Function.comp, List.map_map]
    rfl
  · simp only [List.flatMap_cons, List.flatMap_nil, List.append_nil]
    apply List.map_congr_left
    intro q hq
    apply List.map_congr_left
    intro f hfq
    rw [(fill_depths hf).1 f (List.mem_flatten.mpr ⟨q, hq, hfq⟩)]

example : opSequences squareEngine 9 4 (some 2) 3 [] ⟨rect 0 0 10 10, [], -5⟩ =
    .ok [[⟨rect 4 4 6 6, [], -2⟩, ⟨rect 0 0 10 10, [], -2⟩], [⟨rect 4 4 6 6, [], -4⟩, ⟨rect 0 0 10 10, [], -4⟩],
      [⟨rect 4 4 6 6, [], -5⟩, ⟨rect 0 0 10 10, [], -5⟩]] := by decide +kernel

/-- Without a stepdown, with stepdown 0, and also with a negative stepdown (which Python does not refuse), there is only
the pass at the full depth. -/
theorem C43_single_pass {eng : Clipper} {fuel : ℕ} {stepover : ℚ} {stepdown : Option ℚ} {precision : ℕ}
    {shallower : List PathFace} {op : PathFace} {seqs : List (List PathFace)} (hs : ∀ s, stepdown = some s → s ≤ 0)
    (hd : ∀ o ∈ shallower, op.depth ≤ o.depth) (h0 : op.depth ≤ 0)
    (h : opSequences eng fuel stepover stepdown precision shallower op = .ok seqs) :
    fillPocket eng fuel op stepover precision = .ok seqs := by
  unfold opSequences at h
  obtain ⟨fill, hf, h⟩ := bind_ok.mp h
  cases stepdown with
  | none => cases h; exact hf
  | some s =>
    by_cases h1 : s = 0
    · simp only [if_pos h1] at h
      cases h; exact hf
    · simp only [if_neg h1] at h
      obtain ⟨stepped, h2, h⟩ := bind_ok.mp h
      rw [applyStepdown_fill hf] at h2
      cases h2
      have hneg : s < 0 := lt_of_le_of_ne (hs s rfl) h1
      have hst : op.depth ≤ (determineStepdownStartDepth eng op shallower).getD 0 := by
        unfold determineStepdownStartDepth
        cases hh : (((shallower.filter (fun o => eng.contains o op)).map PathFace.depth).insertionSort (· ≤ ·)).head? with
        | none => exact h0
        | some d =>
          have := List.mem_of_mem_head? hh
          rw [List.mem_insertionSort] at this
          obtain ⟨o, ho, rfl⟩ := List.mem_map.mp this
          exact hd o (List.mem_of_mem_filter ho)
      have : arange ((determineStepdownStartDepth eng op shallower).getD 0 - s) op.depth (-s) = [] := by
        unfold arange
        have : ⌈(op.depth - ((determineStepdownStartDepth eng op shallower).getD 0 - s)) / -s⌉ ≤ 0 := by
          rw [Int.ceil_le]
          push_cast
          apply div_nonpos_of_nonpos_of_nonneg <;> linarith
        rw [Int.toNat_of_nonpos this]
        rfl
      rw [this] at h
      cases h
      exact hf

example : opSequences squareEngine 9 4 (some (-2)) 3 [] ⟨rect 0 0 10 10, [], -5⟩ =
    .ok [[⟨rect 4 4 6 6, [], -5⟩, ⟨rect 0 0 10 10, [], -5⟩]] := by decide +kernel

/-! ### C44 -/

/-- C44.  The start depth for a region is the depth of the deepest earlier region that contains it; there is none iff
no earlier region contains it. -/
theorem C44_start (eng : Clipper) (op : PathFace) (earlier : List PathFace) :
    (∀ d, determineStepdownStartDepth eng op earlier = some d ↔
      (∃ o ∈ earlier, eng.contains o op = true ∧ o.depth = d) ∧
        ∀ o ∈ earlier, eng.contains o op = true → d ≤ o.depth) ∧
    (determineStepdownStartDepth eng op earlier = none ↔ ∀ o ∈ earlier, eng.contains o op = false) := by
  unfold determineStepdownStartDepth
  set l := ((earlier.filter (fun o => eng.contains o op)).map PathFace.depth) with hl
  have hmem : ∀ d, d ∈ l ↔ ∃ o ∈ earlier, eng.contains o op = true ∧ o.depth = d := by
    intro d
    simp [hl, List.mem_map, List.mem_filter, and_assoc]
  have hs := List.pairwise_insertionSort (· ≤ ·) l
  have hm : ∀ d, d ∈ l.insertionSort (· ≤ ·) ↔ d ∈ l := fun d => List.mem_insertionSort _
  constructor
  · intro d
    rw [← hmem]
    constructor
    · intro h
      refine ⟨(hm d).mp (List.mem_of_mem_head? h), ?_⟩
      intro o ho hc
      have ho' := (hm _).mpr ((hmem o.depth).mpr ⟨o, ho, hc, rfl⟩)
      cases hcs : l.insertionSort (· ≤ ·) with
      | nil => rw [hcs] at h; cases h
      | cons x xs =>
        rw [hcs] at h hs ho'
        cases h
        rcases List.mem_cons.mp ho' with h | h
        · exact h.ge
        · exact (List.pairwise_cons.mp hs).1 _ h
    · rintro ⟨h1, h2⟩
      have h1' := (hm d).mpr h1
      cases hcs : l.insertionSort (· ≤ ·) with
      | nil => rw [hcs] at h1'; cases h1'
      | cons x xs =>
        rw [hcs] at hs h1'
        have hx : x ∈ l := (hm x).mp (by rw [hcs]; simp)
        obtain ⟨o, ho, hc, rfl⟩ := (hmem x).mp hx
        have h3 := h2 o ho hc
        rw [List.head?_cons]
        congr 1
        rcases List.mem_cons.mp h1' with h | h
        · exact h.symm
        · exact le_antisymm ((List.pairwise_cons.mp hs).1 _ h) h3
  · constructor
    · intro h o ho
      by_contra hc
      rw [Bool.not_eq_false] at hc
      have := (hm _).mpr ((hmem o.depth).mpr ⟨o, ho, hc, rfl⟩)
      rw [List.head?_eq_none_iff.mp h] at this
      cases this
    · intro h
      have : l = [] := by
        rw [List.eq_nil_iff_forall_not_mem]
        intro d hd
        obtain ⟨o, ho, hc, -⟩ := (hmem d).mp hd
        rw [h o ho] at hc; cases hc
      rw [this]; rfl

theorem allSequences_append {eng : Clipper} {fuel : ℕ} {stepover : ℚ} {stepdown : Option ℚ} {precision : ℕ}
    {pre post : List PathFace} {done : List PathFace} {seqs : List (List PathFace)} :
    allSequences eng fuel stepover stepdown precision done (pre ++ post) = .ok seqs ↔
      ∃ s1 s2, allSequences eng fuel stepover stepdown precision done pre = .ok s1 ∧
        allSequences eng fuel stepover stepdown precision (done ++ pre) post = .ok s2 ∧ seqs = s1 ++ s2 := by
  induction pre generalizing done seqs with
  | nil => simp [allSequences]
  | cons op pre ih =>
    simp only [List.cons_append, allSequences, bind_ok, ih]
    constructor
    · rintro ⟨a, h1, b, ⟨c, d, h2, h3, rfl⟩, h4⟩
      cases h4
      exact ⟨a ++ c, d, ⟨a, h1, c, h2, rfl⟩, by simpa using h3, by simp⟩
    · rintro ⟨s1, s2, ⟨a, h1, c, h2, h4⟩, h3, rfl⟩
      cases h4
      exact ⟨a, h1, c ++ s2, ⟨c, s2, h2, by simpa using h3, rfl⟩, by simp⟩

/-- The final pass of every region processed is among the sequences. -/
theorem fill_infix {eng : Clipper} {fuel : ℕ} {stepover : ℚ} {stepdown : Option ℚ} {precision : ℕ}
    {ops done : List PathFace} {seqs : List (List PathFace)}
    (h : allSequences eng fuel stepover stepdown precision done ops = .ok seqs) {o : PathFace} (ho : o ∈ ops) :
    ∃ fill, fillPocket eng fuel o stepover precision = .ok fill ∧ fill <:+: seqs := by
  obtain ⟨pre, post, rfl⟩ := List.append_of_mem ho
  obtain ⟨s1, s2, -, h2, rfl⟩ := allSequences_append.mp h
  rw [allSequences] at h2
  obtain ⟨a, h3, h4⟩ := bind_ok.mp h2
  obtain ⟨b, h5, h6⟩ := bind_ok.mp h4
  cases h6
  unfold opSequences at h3
  obtain ⟨fill, hf, h7⟩ := bind_ok.mp h3
  refine ⟨fill, hf, ?_⟩
  cases stepdown with
  | none => cases h7; exact ⟨s1, b, by simp⟩
  | some s =>
    by_cases hs : s = 0
    · simp only [if_pos hs] at h7; cases h7; exact ⟨s1, b, by simp⟩
    · simp only [if_neg hs] at h7
      obtain ⟨st, -, h8⟩ := bind_ok.mp h7
      cases h8
      exact ⟨s1 ++ st, b, by simp⟩

/-- C44.  The depth from which a region is stepped down is already cleared over the whole region: it is the stock
surface, or else some region that contains this one was filled at exactly that depth earlier in the same pocket. -/
theorem C44_cleared {eng : Clipper} {fuel : ℕ} {stepover : ℚ} {stepdown : Option ℚ} {precision : ℕ}
    {pre post : List PathFace} {op : PathFace} {seqs : List (List PathFace)}
    (h : allSequences eng fuel stepover stepdown precision [] (pre ++ op :: post) = .ok seqs) :
    ∃ before own after, seqs = before ++ own ++ after ∧
      opSequences eng fuel stepover stepdown precision pre op = .ok own ∧
      ((∀ o ∈ pre, eng.contains o op = false) ∧ determineStepdownStartDepth eng op pre = none ∨
        ∃ o ∈ pre, ∃ fill, eng.contains o op = true ∧ determineStepdownStartDepth eng op pre = some o.depth ∧
          fillPocket eng fuel o stepover precision = .ok fill ∧ fill <:+: before ∧
          ∀ f ∈ fill.flatten, f.depth = o.depth) := by
  obtain ⟨s1, s2, h1, h2, rfl⟩ := allSequences_append.mp h
  rw [allSequences] at h2
  obtain ⟨own, h3, h4⟩ := bind_ok.mp h2
  obtain ⟨after, h5, h6⟩ := bind_ok.mp h4
  cases h6
  refine ⟨s1, own, after, by simp, by simpa using h3, ?_⟩
  obtain ⟨c1, c2⟩ := C44_start eng op pre
  cases hd : determineStepdownStartDepth eng op pre with
  | none => exact Or.inl ⟨c2.mp hd, rfl⟩
  | some d =>
    obtain ⟨⟨o, ho, hc, rfl⟩, -⟩ := (c1 d).mp hd
    obtain ⟨fill, hf, hin⟩ := fill_infix h1 ho
    exact Or.inr ⟨o, ho, fill, hc, rfl, hf, hin, (fill_depths hf).1⟩

/-- Two regions, the second inside the first: the second is stepped down from the depth of the first. -/
def nestedEngine : Clipper := { squareEngine with contains := fun o p => decide (p.depth < o.depth) }

example : allSequences nestedEngine 9 4 (some 2) 3 [] [⟨rect 0 0 8 8, [], -1⟩, ⟨rect 0 0 6 6, [], -4⟩] =
    .ok [[⟨rect 0 0 8 8, [], -1⟩], [⟨rect 0 0 6 6, [], -3⟩], [⟨rect 0 0 6 6, [], -4⟩]] := by decide +kernel

end CQ
