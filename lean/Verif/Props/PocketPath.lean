import Verif.Props.PocketPasses
import Verif.Props.Contours

/-! # C45: the whole tool path of a pocket (with C25 and C26 for pockets) -/

namespace CQ

/-- A feed move of a pocket: a cut at the job's feed or a plunge at its plunge feed, ending at depth `d`. -/
def FeedMove (j : Job) (d : ℚ) (c : Motion) : Prop :=
  c.fin.z = some d ∧ ((c.kind = .cut ∧ c.feed = some j.feed) ∨ (c.kind = .plungeCut ∧ ¬ Lateral c ∧ c.feed = some j.plungeFeed))

theorem routeFace_feeds {j : Job} {stepover : Option ℚ} {pwe : Option Pt} {pos : AddrVec} {f : PathFace}
    {cs : List Motion} {q : Option Pt} (h : routeFace j stepover pwe pos f = .ok (cs, q)) :
    ∀ c ∈ cs, c.kind.mot ≠ .rapid → FeedMove j f.depth c := by
  obtain ⟨app, ps, rfl, ha⟩ := routeFace_pieces h
  intro c hc hk
  rcases List.mem_append.mp hc with hc | hc
  · rcases ha with ⟨p, rfl⟩ | ⟨p0, rfl⟩
    · rw [List.mem_singleton] at hc
      subst hc
      exact ⟨rfl, Or.inl ⟨rfl, rfl⟩⟩
    · obtain ⟨h1, h2, -, h4⟩ := rapidTo_feeds _ _ _ _ _ c hc hk
      exact ⟨by rw [h4], Or.inr ⟨h1.1, h1.2, h2⟩⟩
  · obtain ⟨h1, h2, p, -, h3⟩ := cutsTo_mem hc
    exact ⟨by rw [h3]; rfl, Or.inl ⟨h1, h2⟩⟩

theorem routeFaces_feeds {j : Job} {stepover : Option ℚ} {faces : List PathFace} {pwe : Option Pt} {pos : AddrVec}
    {cs : List Motion} (h : routeFaces j stepover pwe pos faces = .ok cs) :
    ∀ c ∈ cs, c.kind.mot ≠ .rapid → ∃ f ∈ faces, FeedMove j f.depth c := by
  induction faces generalizing pwe pos cs with
  | nil => cases h; simp
  | cons f fs ih =>
    unfold routeFaces at h
    cases h1 : routeFace j stepover pwe pos f with
    | error e => rw [h1] at h; cases h
    | ok r =>
      obtain ⟨b, q⟩ := r
      simp only [h1] at h
      cases h2 : routeFaces j stepover q (lastFin pos b) fs with
      | error e => rw [h2] at h; cases h
      | ok rest =>
        simp only [h2] at h
        cases h
        intro c hc hk
        rcases List.mem_append.mp hc with hc | hc
        · exact ⟨f, by simp, routeFace_feeds h1 c hc hk⟩
        · obtain ⟨g, hg, hm⟩ := ih h2 c hc hk
          exact ⟨g, by simp [hg], hm⟩

/-- The first command of a call of the contour router. -/
theorem routeFaces_head {j : Job} {stepover : Option ℚ} {faces : List PathFace} {pos : AddrVec}
    {cs : List Motion} (hne : faces ≠ []) (h : routeFaces j stepover none pos faces = .ok cs) :
    ∃ c rest, cs = c :: rest ∧ c.kind = .retract ∧ c.start = pos ∧ c.fin = ⟨pos.x, pos.y, some j.rapidHeight⟩ := by
  cases faces with
  | nil => exact absurd rfl hne
  | cons f fs =>
    unfold routeFaces at h
    cases h1 : routeFace j stepover none pos f with
    | error e => rw [h1] at h; cases h
    | ok r =>
      obtain ⟨b, q⟩ := r
      simp only [h1] at h
      cases h2 : routeFaces j stepover q (lastFin pos b) fs with
      | error e => rw [h2] at h; cases h
      | ok rest =>
        simp only [h2] at h
        cases h
        unfold routeFace at h1
        cases ho : f.outer with
        | nil => rw [ho] at h1; cases h1
        | cons p0 ps =>
          simp only [ho, nearestTo, shortLink] at h1
          obtain ⟨up, side, down, feed, e, hup, -⟩ := C24_approach pos ⟨p0.x, p0.y, f.depth⟩ j.rapidHeight
            j.opSafeHeight (some j.plungeFeed)
          cases stepover <;> (simp only [e] at h1; cases h1; exact ⟨up, _, rfl, hup⟩)

/-- What holds for the commands of the sequences routed so far. -/
structure PathOK (j : Job) (seqs : List (List PathFace)) (cs : List Motion) : Prop where
  connected : Connected {} cs
  safe : ∀ c ∈ cs, SafeRapid j.rapidHeight (min j.rapidHeight j.opSafeHeight) c
  feeds : ∀ c ∈ cs, c.kind.mot ≠ .rapid → ∃ f ∈ seqs.flatten, FeedMove j f.depth c
  first : ∀ c, cs.head? = some c → c.kind = .retract ∧ c.start = {} ∧ c.fin = ⟨none, none, some j.rapidHeight⟩

theorem routeSequences_ok {j : Job} {stepover : ℚ} {done seqs : List (List PathFace)} (hne : ∀ s ∈ seqs, s ≠ [])
    {acc cs : List Motion} (ha : PathOK j done acc) (h : routeSequences j stepover acc (finalPos {} acc) seqs = .ok cs) :
    PathOK j (done ++ seqs) cs := by
  induction seqs generalizing done acc with
  | nil => cases h; simpa using ha
  | cons s ss ih =>
    unfold routeSequences at h
    obtain ⟨b, h1, h⟩ := bind_ok.mp h
    have hb := routeFaces_ok h1
    have hf := routeFaces_feeds h1
    obtain ⟨c0, rest, hc0, k1, k2, k3⟩ := routeFaces_head (hne s (by simp)) h1
    have hlast : (acc ++ b).getLast? = some ((acc ++ b).getLast (by simp [hc0])) := List.getLast?_eq_some_getLast _
    simp only [hlast] at h
    have hfin : ((acc ++ b).getLast (by simp [hc0])).fin = finalPos {} (acc ++ b) := by
      rw [← lastFin_eq]; unfold lastFin; rw [hlast]
    rw [hfin] at h
    have := ih (done := done ++ [s]) (fun x hx => hne x (by simp [hx])) (acc := acc ++ b) ?_ h
    · simpa using this
    · simp only [Option.getD_some] at hb k2 k3
      refine ⟨connected_append.mpr ⟨ha.connected, hb.1⟩, ?_, ?_, ?_⟩
      · intro c hc
        rcases List.mem_append.mp hc with hc | hc
        · exact ha.safe c hc
        · exact hb.2 c hc
      · intro c hc hk
        rcases List.mem_append.mp hc with hc | hc
        · obtain ⟨f, hf, hm⟩ := ha.feeds c hc hk
          exact ⟨f, by simp at hf ⊢; exact Or.inl hf, hm⟩
        · obtain ⟨f, hf, hm⟩ := hf c hc hk
          exact ⟨f, by simp [hf], hm⟩
      · intro c hc
        cases acc with
        | nil =>
          rw [List.nil_append, hc0] at hc
          cases hc
          exact ⟨k1, k2, k3⟩
        | cons a acc => exact ha.first c hc

theorem pathOK_nil (j : Job) : PathOK j [] [] := ⟨trivial, by simp, by simp, by simp⟩

/-! ### Depths -/

theorem arange_above {s : ℚ} (hs : 0 < s) {a stop x : ℚ} (h : x ∈ arange a stop (-s)) : stop < x := by
  unfold arange at h
  obtain ⟨i, hi, rfl⟩ := List.mem_map.mp h
  rw [List.mem_range, Int.lt_toNat, Int.lt_ceil] at hi
  have e : (stop - a) / -s = (a - stop) / s := by field_simp; ring
  rw [e, lt_div_iff₀ hs] at hi
  push_cast at hi
  linarith

theorem arange_below {s : ℚ} (hs : 0 < s) {a stop x : ℚ} (h : x ∈ arange a stop (-s)) : x ≤ a := by
  unfold arange at h
  obtain ⟨i, -, rfl⟩ := List.mem_map.mp h
  have : (0 : ℚ) ≤ i * s := by positivity
  linarith

theorem start_nonpos {eng : Clipper} {op : PathFace} {earlier : List PathFace} (h0 : ∀ o ∈ earlier, o.depth ≤ 0) :
    (determineStepdownStartDepth eng op earlier).getD 0 ≤ 0 := by
  cases hd : determineStepdownStartDepth eng op earlier with
  | none => exact le_rfl
  | some d =>
    obtain ⟨⟨o, ho, -, rfl⟩, -⟩ := ((C44_start eng op earlier).1 d).mp hd
    exact h0 o ho

theorem opSequences_depths {eng : Clipper} {fuel : ℕ} {stepover : ℚ} {stepdown : Option ℚ} {precision : ℕ}
    {shallower : List PathFace} {op : PathFace} {seqs : List (List PathFace)}
    (hd : ∀ o ∈ shallower, op.depth ≤ o.depth) (h00 : ∀ o ∈ shallower, o.depth ≤ 0) (h0 : op.depth ≤ 0)
    (h : opSequences eng fuel stepover stepdown precision shallower op = .ok seqs) :
    (∀ f ∈ seqs.flatten, op.depth ≤ f.depth ∧ f.depth ≤ 0) ∧ ∀ s ∈ seqs, s ≠ [] := by
  by_cases hs : ∀ s, stepdown = some s → s ≤ 0
  · have := C43_single_pass hs hd h0 h
    exact ⟨fun f hf => ⟨((fill_depths this).1 f hf).ge, by rw [(fill_depths this).1 f hf]; exact h0⟩, (fill_depths this).2.2⟩
  · push Not at hs
    obtain ⟨s, rfl, hs⟩ := hs
    unfold opSequences at h
    obtain ⟨fill, hf, h⟩ := bind_ok.mp h
    simp only [if_neg hs.ne'] at h
    obtain ⟨stepped, h1, h⟩ := bind_ok.mp h
    rw [applyStepdown_fill hf] at h1
    cases h1
    cases h
    obtain ⟨d1, -, d3⟩ := fill_depths hf
    constructor
    · intro f hfm
      obtain ⟨q, hq, hfq⟩ := List.mem_flatten.mp hfm
      rcases List.mem_append.mp hq with hq | hq
      · obtain ⟨d, hd', hq⟩ := List.mem_flatMap.mp hq
        obtain ⟨q', -, rfl⟩ := List.mem_map.mp hq
        obtain ⟨g, -, rfl⟩ := List.mem_map.mp hfq
        have hb : d ≤ _ := arange_below hs hd'
        have := start_nonpos (eng := eng) (op := op) h00
        exact ⟨(arange_above hs hd').le, by show d ≤ 0; linarith⟩
      · rw [d1 f (List.mem_flatten.mpr ⟨q, hq, hfq⟩)]
        exact ⟨le_rfl, h0⟩
    · intro q hq
      rcases List.mem_append.mp hq with hq | hq
      · obtain ⟨d, -, hq⟩ := List.mem_flatMap.mp hq
        obtain ⟨q', hq', rfl⟩ := List.mem_map.mp hq
        simpa using d3 q' hq'
      · exact d3 q hq

theorem allSequences_depths {eng : Clipper} {fuel : ℕ} {stepover : ℚ} {stepdown : Option ℚ} {precision : ℕ}
    {done ops : List PathFace} {seqs : List (List PathFace)}
    (hd : (done ++ ops).Pairwise (fun a b => b.depth ≤ a.depth)) (h0 : ∀ o ∈ done ++ ops, o.depth ≤ 0)
    (h : allSequences eng fuel stepover stepdown precision done ops = .ok seqs) :
    (∀ f ∈ seqs.flatten, (∃ o ∈ ops, o.depth ≤ f.depth) ∧ f.depth ≤ 0) ∧ ∀ s ∈ seqs, s ≠ [] := by
  induction ops generalizing done seqs with
  | nil => cases h; simp
  | cons op ops ih =>
    rw [allSequences] at h
    obtain ⟨a, h1, h⟩ := bind_ok.mp h
    obtain ⟨b, h2, h⟩ := bind_ok.mp h
    cases h
    have i1 := opSequences_depths (fun o ho => (List.pairwise_append.mp hd).2.2 o ho op (by simp))
      (fun o ho => h0 o (by simp [ho])) (h0 op (by simp)) h1
    have i2 := ih (done := done ++ [op]) (by simpa using hd) (fun o ho => h0 o (by simpa using ho)) h2
    constructor
    · intro f hf
      rw [List.flatten_append] at hf
      rcases List.mem_append.mp hf with hf | hf
      · exact ⟨⟨op, by simp, (i1.1 f hf).1⟩, (i1.1 f hf).2⟩
      · obtain ⟨⟨o, ho, hle⟩, hz⟩ := i2.1 f hf
        exact ⟨⟨o, by simp [ho], hle⟩, hz⟩
    · intro s hs
      rcases List.mem_append.mp hs with hs | hs
      · exact i1.2 s hs
      · exact i2.2 s hs

theorem offsetPolyface_depth {eng : Clipper} {f : PathFace} {a b : ℚ} {precision : ℕ} {fs : List PathFace}
    (h : offsetPolyface eng f a b precision = .ok fs) : ∀ g ∈ fs, g.depth = f.depth := by
  unfold offsetPolyface at h
  obtain ⟨outers, h1, h⟩ := bind_ok.mp h
  by_cases hi : f.inners ≠ []
  · rw [if_pos hi] at h
    obtain ⟨inners, -, h⟩ := bind_ok.mp h
    unfold makePolyfaces differencePolyTree at h
    obtain ⟨tree, -, h⟩ := bind_ok.mp h
    exact fun g hg => polyTree_depth h hg
  · rw [if_neg hi] at h
    cases h
    intro g hg
    obtain ⟨o, -, rfl⟩ := List.mem_map.mp hg
    rfl

theorem flatten_pairwise {groups : List (ℚ × List PathFace)} (h : (groups.map Prod.fst).Pairwise (fun a b => b < a))
    (hg : ∀ g ∈ groups, ∀ f ∈ g.2, f.depth = g.1) :
    (groups.map Prod.snd).flatten.Pairwise (fun a b => b.depth ≤ a.depth) := by
  rw [List.pairwise_flatten]
  constructor
  · intro l hl
    obtain ⟨g, hg', rfl⟩ := List.mem_map.mp hl
    exact List.pairwise_of_forall_mem_list (fun a ha b hb => by rw [hg g hg' a ha, hg g hg' b hb])
  · rw [List.pairwise_map] at h ⊢
    refine h.imp_of_mem ?_
    intro a b ha hb hab x hx y hy
    rw [hg a ha x hx, hg b hb y hy]
    exact hab.le

theorem ops_depth {eng : Clipper} {opAreas avoidAreas ops : List PathFace}
    (h : buildPocketOps eng opAreas avoidAreas = .ok ops) {o : PathFace} (ho : o ∈ ops) :
    ∃ f ∈ opAreas, f.depth = o.depth := by
  obtain ⟨-, groups, rfl, -, g2, g3⟩ := C38_order h
  obtain ⟨l, hl, ho⟩ := List.mem_flatten.mp ho
  obtain ⟨g, hg, rfl⟩ := List.mem_map.mp hl
  rw [g3 g hg o ho]
  exact (g2 g.1).mp (List.mem_map.mpr ⟨g, hg, rfl⟩)

/-- C45 (and with it C25 and C26 for pockets).  The whole command list of a pocket operation, whatever the engine does:
it starts with a retract to the rapid height; every move starts where the one before ended; every rapid that moves
sideways does so at the rapid height, and no rapid goes below the safe height; every other move is a cut at the job's
feed or a vertical plunge at its plunge feed, and ends at or above the depth of one of the given faces. -/
theorem C45_pocket_path {eng : Clipper} {fuel : ℕ} {j : Job} {opAreas avoidAreas : List PathFace}
    {outerOffset innerOffset avoidOuterOffset avoidInnerOffset stepover : ℚ} {stepdown : Option ℚ} {cs : List Motion}
    (h : pocketClipper eng fuel j opAreas avoidAreas outerOffset innerOffset avoidOuterOffset avoidInnerOffset stepover
      stepdown = .ok cs) :
    (∀ c, cs.head? = some c → c.kind = .retract ∧ c.start = {} ∧ c.fin = ⟨none, none, some j.rapidHeight⟩) ∧
    Connected {} cs ∧
    (∀ c ∈ cs, SafeRapid j.rapidHeight (min j.rapidHeight j.opSafeHeight) c) ∧
    ∀ c ∈ cs, c.kind.mot ≠ .rapid → ∃ z, FeedMove j z c ∧ ∃ f ∈ opAreas, f.depth ≤ z := by
  unfold pocketClipper at h
  obtain ⟨ops, h1, h⟩ := bind_ok.mp h
  obtain ⟨avoids, h2, h⟩ := bind_ok.mp h
  obtain ⟨pops, h3, h⟩ := bind_ok.mp h
  obtain ⟨seqs, h4, h5⟩ := bind_ok.mp h
  obtain ⟨hz, groups, rfl, g1, g2, g3⟩ := C38_order h3
  have hfrom := fun o ho => ops_depth h3 (o := o) ho
  have hd := allSequences_depths (done := []) (flatten_pairwise g1 g3) (fun o ho => by
    obtain ⟨f, hf, he⟩ := hfrom o ho
    rw [← he]
    exact hz f (List.mem_append_left _ hf)) h4
  have hp := routeSequences_ok hd.2 (pathOK_nil j) h5
  refine ⟨hp.first, hp.connected, hp.safe, ?_⟩
  intro c hc hk
  obtain ⟨f, hf, hm⟩ := hp.feeds c hc hk
  obtain ⟨⟨o, ho, hle⟩, -⟩ := hd.1 f hf
  obtain ⟨f', hf', he⟩ := hfrom o ho
  obtain ⟨l, hl, hfl⟩ := List.mem_flatten.mp hf'
  obtain ⟨f0, hf0, hoff⟩ := mapE_mem h1 hl
  exact ⟨f.depth, hm, f0, hf0, by rw [← offsetPolyface_depth hoff f' hfl, he]; exact hle⟩

/-- C45 for the operation as called: faces in job coordinates, offsets in tool radii. -/
theorem C45_pocket {eng : Clipper} {veq : Vec → Vec → Bool} {fuel : ℕ} {opAreas avoidAreas : List CqFace}
    {a : PocketArgs} {j : Job} {cs : List Motion} (h : pocket eng veq fuel opAreas avoidAreas a j = .ok cs)
    (hh : j.opSafeHeight ≤ j.rapidHeight) :
    (∀ c, cs.head? = some c → c.kind = .retract ∧ c.start = {} ∧ c.fin = ⟨none, none, some j.rapidHeight⟩) ∧
    Connected {} cs ∧
    (∀ c ∈ cs, SafeRapid j.rapidHeight j.opSafeHeight c) ∧
    ∀ c ∈ cs, c.kind.mot ≠ .rapid → ∃ z, FeedMove j z c ∧ ∃ f ∈ opAreas, f.zmax ≤ z := by
  unfold pocket at h
  cases hr : j.toolRadius with
  | none => rw [hr] at h; cases h
  | some r =>
    rw [hr] at h
    obtain ⟨ops, h1, h⟩ := bind_ok.mp h
    obtain ⟨avoids, h2, h⟩ := bind_ok.mp h
    obtain ⟨g1, g2, g3, g4⟩ := C45_pocket_path h
    rw [min_eq_right hh] at g3
    refine ⟨g1, g2, g3, ?_⟩
    intro c hc hk
    obtain ⟨z, hz, f, hf, hle⟩ := g4 c hc hk
    obtain ⟨f0, hf0, he⟩ := mapE_mem h1 hf
    refine ⟨z, hz, f0, hf0, ?_⟩
    have : f.depth = f0.zmax := by
      unfold PathFace.fromCqFace at he
      split at he
      · cases he
      · obtain ⟨o, -, he⟩ := bind_ok.mp he
        obtain ⟨is, -, he⟩ := bind_ok.mp he
        cases he; rfl
    rw [← this]; exact hle

/-- C25 for whole pockets. -/
theorem C25_pocket {eng : Clipper} {veq : Vec → Vec → Bool} {fuel : ℕ} {opAreas avoidAreas : List CqFace}
    {a : PocketArgs} {j : Job} {cs : List Motion} (h : pocket eng veq fuel opAreas avoidAreas a j = .ok cs)
    (hh : j.opSafeHeight ≤ j.rapidHeight) : ∀ c ∈ cs, SafeRapid j.rapidHeight j.opSafeHeight c := (C45_pocket h hh).2.2.1

/-- C26 for whole pockets (the position before is not known: all axes `None`). -/
theorem C26_pocket {eng : Clipper} {veq : Vec → Vec → Bool} {fuel : ℕ} {opAreas avoidAreas : List CqFace}
    {a : PocketArgs} {j : Job} {cs : List Motion} (h : pocket eng veq fuel opAreas avoidAreas a j = .ok cs) :
    Connected {} cs := by
  unfold pocket at h
  cases hr : j.toolRadius with
  | none => rw [hr] at h; cases h
  | some r =>
    rw [hr] at h
    obtain ⟨ops, _, h⟩ := bind_ok.mp h
    obtain ⟨avoids, _, h⟩ := bind_ok.mp h
    exact (C45_pocket_path h).2.1

/-! ### Everything is cut -/

theorem routeSequences_blocks {j : Job} {stepover : ℚ} {seqs : List (List PathFace)} (hne : ∀ s ∈ seqs, s ≠ [])
    (hf : ∀ f ∈ seqs.flatten, FaceOK j f) (acc : List Motion) (pos : AddrVec) :
    ∃ bs, routeSequences j stepover acc pos seqs = .ok (acc ++ bs.flatten) ∧
      List.Forall₂ (fun f b => ∃ pre cuts post, b = pre ++ cuts ++ post ∧ CutsContour f.depth j.feed f.outer cuts ∧
        ∀ s ∈ segments f.outer, ∀ q, OnSegment s.1 s.2 q → ∃ c ∈ cuts, CutsThrough f.depth q c) seqs.flatten bs := by
  induction seqs generalizing acc pos with
  | nil => exact ⟨[], by simp [routeSequences], .nil⟩
  | cons s ss ih =>
    obtain ⟨b1, h1, h2⟩ := C27_contours_cut j s (some stepover) (some pos) (fun f h => hf f (by simp [h]))
    obtain ⟨c0, rest, hc0, -⟩ := routeFaces_head (hne s (by simp)) h1
    have hlast : (acc ++ b1.flatten).getLast? = some ((acc ++ b1.flatten).getLast (by simp [hc0])) :=
      List.getLast?_eq_some_getLast _
    obtain ⟨b2, h3, h4⟩ := ih (fun x hx => hne x (by simp [hx])) (fun f h => hf f (by simp at h ⊢; exact Or.inr h))
      (acc ++ b1.flatten) ((acc ++ b1.flatten).getLast (by simp [hc0])).fin
    refine ⟨b1 ++ b2, ?_, ?_⟩
    · unfold routeSequences
      rw [h1, ok_bind]
      simp only [hlast, h3]
      simp
    · rw [List.flatten_cons]
      exact List.rel_append h2 h4

theorem unfolds_mem {R : List Pt → List (List Pt) → Prop} {ps xs : List (List Pt)} (h : Unfolds R ps xs) {x : List Pt}
    (hx : x ∈ xs) : x ∈ ps ∨ ∃ p cs, R p cs ∧ x ∈ cs := by
  induction h with
  | nil => simp at hx
  | @cons p ps cs xs ys hn _ _ ih1 ih2 =>
    rcases List.mem_cons.mp hx with rfl | hx
    · exact Or.inl (by simp)
    · rcases List.mem_append.mp hx with hx | hx
      · rcases ih1 hx with h | h
        · exact Or.inr ⟨p, cs, hn, h⟩
        · exact Or.inr h
      · rcases ih2 hx with h | h
        · exact Or.inl (by simp [h])
        · exact Or.inr h

/-- The engine gives contours in which no two neighbouring points are equal. -/
structure NoRepeats (eng : Clipper) : Prop where
  offset : ∀ p o k ps, eng.offset p o k = .ok ps → ∀ q ∈ ps, ∀ q', ClosedAs q q' → ∀ s ∈ segments q', s.1 ≠ s.2
  difference : ∀ ps cs tree, eng.difference ps cs = .ok tree → ∀ n ∈ tree, ∀ q', ClosedAs n.contour q' →
    ∀ s ∈ segments q', s.1 ≠ s.2

/-- A contour that is closed and has no two equal neighbouring points. -/
def Clean (p : List Pt) : Prop := IsClosedPath p ∧ ∀ s ∈ segments p, s.1 ≠ s.2

theorem follows_clean {eng : Clipper} (he : NoRepeats eng) {pocket : PathFace} {step : ℚ} {precision : ℕ} {p : List Pt}
    {cs : List (List Pt)} (h : Follows eng pocket step precision p cs) : ∀ c ∈ cs, Clean c := by
  obtain ⟨raw, shrunk, h1, h2, h3⟩ := h
  have hs : ∀ c ∈ shrunk, Clean c := by
    intro c hc
    obtain ⟨q, hq, hqc⟩ := forall₂_mem_right h2 hc
    exact ⟨hqc.1, he.offset _ _ _ _ h1 q (List.mem_of_mem_filter hq) c hqc⟩
  by_cases hcond : shrunk = [] ∨ pocket.inners = []
  · rw [if_pos hcond] at h3
    rw [h3]; exact hs
  · rw [if_neg hcond] at h3
    obtain ⟨tree, h4, h5⟩ := h3
    intro c hc
    obtain ⟨n, hn, hnc⟩ := forall₂_mem_right h5 hc
    exact ⟨hnc.1, he.difference _ _ _ h4 n hn c hnc⟩

theorem ops_clean {eng : Clipper} (he : NoRepeats eng) {opAreas avoidAreas ops : List PathFace}
    (h : buildPocketOps eng opAreas avoidAreas = .ok ops) : ∀ o ∈ ops, Clean o.outer := by
  intro o ho
  obtain ⟨-, groups, rfl, -, g2, g3⟩ := C38_order h
  obtain ⟨l, hl, ho'⟩ := List.mem_flatten.mp ho
  obtain ⟨g, hg, rfl⟩ := List.mem_map.mp hl
  have hd := (g2 o.depth).mp (by rw [g3 g hg o ho']; exact List.mem_map.mpr ⟨g, hg, rfl⟩)
  obtain ⟨_, clips, ut, dt, us, fs, -, -, -, -, k5, k6, k7⟩ := ops_from h o.depth hd
  have hof := (k7 o).mp ⟨ho, rfl⟩
  obtain ⟨n, hn, hnf⟩ := mapE_mem k6 hof
  have hcl := closedAs_of (nodeToPolyFace_ok hnf).1
  exact ⟨hcl.1, he.difference _ _ _ k5 n hn _ hcl⟩

theorem opSequences_faces {eng : Clipper} {fuel : ℕ} {stepover : ℚ} {stepdown : Option ℚ} {precision : ℕ}
    {shallower : List PathFace} {op : PathFace} {seqs : List (List PathFace)}
    (h : opSequences eng fuel stepover stepdown precision shallower op = .ok seqs) :
    ∃ fill, fillPocket eng fuel op stepover precision = .ok fill ∧ fill <:+: seqs ∧
      ∀ f ∈ seqs.flatten, ∃ g ∈ fill.flatten, f.outer = g.outer := by
  unfold opSequences at h
  obtain ⟨fill, hf, h⟩ := bind_ok.mp h
  refine ⟨fill, hf, ?_⟩
  cases stepdown with
  | none => cases h; exact ⟨List.infix_rfl, fun f hf => ⟨f, hf, rfl⟩⟩
  | some s =>
    by_cases hs : s = 0
    · simp only [if_pos hs] at h; cases h; exact ⟨List.infix_rfl, fun f hf => ⟨f, hf, rfl⟩⟩
    · simp only [if_neg hs] at h
      obtain ⟨st, h1, h8⟩ := bind_ok.mp h
      rw [applyStepdown_fill hf] at h1
      cases h1
      cases h8
      refine ⟨(List.suffix_append _ _).isInfix, ?_⟩
      intro f hfm
      obtain ⟨q, hq, hfq⟩ := List.mem_flatten.mp hfm
      rcases List.mem_append.mp hq with hq | hq
      · obtain ⟨d, hd', hq⟩ := List.mem_flatMap.mp hq
        obtain ⟨q', hq', rfl⟩ := List.mem_map.mp hq
        obtain ⟨g, hg, rfl⟩ := List.mem_map.mp hfq
        exact ⟨g, List.mem_flatten.mpr ⟨q', hq', hg⟩, rfl⟩
      · exact ⟨f, List.mem_flatten.mpr ⟨q, hq, hfq⟩, rfl⟩

theorem allSequences_faces {eng : Clipper} {fuel : ℕ} {stepover : ℚ} {stepdown : Option ℚ} {precision : ℕ}
    {done ops : List PathFace} {seqs : List (List PathFace)}
    (h : allSequences eng fuel stepover stepdown precision done ops = .ok seqs) :
    ∀ f ∈ seqs.flatten, ∃ op ∈ ops, ∃ fill, fillPocket eng fuel op stepover precision = .ok fill ∧
      ∃ g ∈ fill.flatten, f.outer = g.outer := by
  induction ops generalizing done seqs with
  | nil => cases h; simp
  | cons op ops ih =>
    rw [allSequences] at h
    obtain ⟨a, h1, h⟩ := bind_ok.mp h
    obtain ⟨b, h2, h⟩ := bind_ok.mp h
    cases h
    intro f hf
    rw [List.flatten_append] at hf
    rcases List.mem_append.mp hf with hf | hf
    · obtain ⟨fill, k1, -, k3⟩ := opSequences_faces h1
      exact ⟨op, by simp, fill, k1, k3 f hf⟩
    · obtain ⟨o, ho, r⟩ := ih h2 f hf
      exact ⟨o, by simp [ho], r⟩

/-- C45 (with C27 and C42).  In a pocket every contour of every region is cut completely at the depth of the region: the
outline of each region to clear, and everything obtained from it by repeated shrinking and removal of the holes.  (For
engines that give contours without repeated points, and a safe height above the stock.) -/
theorem C45_everything_cut {eng : Clipper} (he : NoRepeats eng) {fuel : ℕ} {j : Job} {opAreas avoidAreas : List PathFace}
    {outerOffset innerOffset avoidOuterOffset avoidInnerOffset stepover : ℚ} {stepdown : Option ℚ} {cs : List Motion}
    (h : pocketClipper eng fuel j opAreas avoidAreas outerOffset innerOffset avoidOuterOffset avoidInnerOffset stepover
      stepdown = .ok cs) (hsafe : 0 < j.opSafeHeight) :
    ∃ areas avoids regions,
      mapE (fun f => offsetPolyface eng f outerOffset innerOffset j.precision) opAreas = .ok areas ∧
      mapE (fun f => offsetPolyface eng f avoidOuterOffset avoidInnerOffset j.precision) avoidAreas = .ok avoids ∧
      buildPocketOps eng areas.flatten avoids.flatten = .ok regions ∧
      ∀ r ∈ regions, ∃ contours, Unfolds (Follows eng r stepover j.precision) [r.outer] contours ∧
        ∀ p ∈ contours, ∀ s ∈ segments p, ∀ q, OnSegment s.1 s.2 q → ∃ c ∈ cs, CutsThrough r.depth q c := by
  unfold pocketClipper at h
  obtain ⟨areas, h1, h⟩ := bind_ok.mp h
  obtain ⟨avoids, h2, h⟩ := bind_ok.mp h
  obtain ⟨regions, h3, h⟩ := bind_ok.mp h
  obtain ⟨seqs, h4, h5⟩ := bind_ok.mp h
  refine ⟨areas, avoids, regions, h1, h2, h3, ?_⟩
  have hz : ∀ o ∈ regions, o.depth ≤ 0 := by
    intro o ho
    obtain ⟨f, hf, he⟩ := ops_depth h3 ho
    rw [← he]
    exact (C38_order h3).1 f (List.mem_append_left _ hf)
  have hpw : regions.Pairwise (fun a b => b.depth ≤ a.depth) := by
    obtain ⟨-, groups, rfl, g1, g2, g3⟩ := C38_order h3
    exact flatten_pairwise g1 g3
  have hd := allSequences_depths (done := []) hpw (fun o ho => hz o ho) h4
  have hclean := ops_clean he h3
  have hfill : ∀ op ∈ regions, ∀ fill, fillPocket eng fuel op stepover j.precision = .ok fill →
      ∀ g ∈ fill.flatten, Clean g.outer := by
    intro op hop fill hf g hg
    obtain ⟨xs, k1, k2, -⟩ := C42_complete hf
    rcases unfolds_mem k1 (k2.mem_iff.mp (List.mem_map.mpr ⟨g, hg, rfl⟩)) with hx | ⟨p, ps, hR, hx⟩
    · rw [List.mem_singleton] at hx
      rw [hx]; exact hclean op hop
    · exact follows_clean he hR _ hx
  have hok : ∀ f ∈ seqs.flatten, FaceOK j f := by
    intro f hf
    obtain ⟨op, hop, fill, k1, g, hg, ke⟩ := allSequences_faces h4 f hf
    have := hfill op hop fill k1 g hg
    rw [← ke] at this
    exact ⟨this.1, this.2, lt_of_le_of_lt (hd.1 f hf).2 hsafe⟩
  obtain ⟨bs, k1, k2⟩ := routeSequences_blocks (stepover := stepover) hd.2 hok [] {}
  rw [h5] at k1
  cases k1
  intro r hr
  obtain ⟨fill, hf, hin⟩ := fill_infix h4 hr
  obtain ⟨xs, m1, m2, m3, -⟩ := C42_complete hf
  refine ⟨xs, m1, ?_⟩
  intro p hp s hs q hq
  obtain ⟨f, hff, rfl⟩ := List.mem_map.mp (m2.mem_iff.mpr hp)
  have hfs : f ∈ seqs.flatten := by
    obtain ⟨l, hl, hfl⟩ := List.mem_flatten.mp hff
    exact List.mem_flatten.mpr ⟨l, hin.mem hl, hfl⟩
  obtain ⟨b, hb, pre, cuts, post, rfl, -, hc⟩ := forall₂_mem_left k2 hfs
  obtain ⟨c, hc1, hc2⟩ := hc s hs q hq
  rw [(m3 f hff).1] at hc2
  exact ⟨c, List.mem_flatten.mpr ⟨_, hb, by simp [hc1]⟩, hc2⟩

theorem squareEngine_noRepeats_offset {p : List Pt} {o : ℚ} {k : ℕ} {ps : List (List Pt)}
    (h : squareEngine.offset p o k = .ok ps) : ∀ q ∈ ps, ∃ a b, a < b ∧ q = rect a a b b := by
  simp only [squareEngine] at h
  split at h
  · split at h
    · cases h
      intro q hq
      rw [List.mem_singleton] at hq
      exact ⟨_, _, by assumption, hq⟩
    · cases h; simp
  · cases h; simp

/-- An engine like `squareEngine` that only ever gives squares. -/
def cleanEngine : Clipper := { squareEngine with
  union := fun ps _ => .ok (ps.map (fun p => .node p []))
  difference := fun ps _ => .ok ((ps.filter (fun p => decide (∀ s ∈ segments p, s.1 ≠ s.2) && decide (p.head? = p.getLast?))).map
    (fun p => .node p [])) }

theorem cleanEngine_noRepeats : NoRepeats cleanEngine where
  offset := by
    intro p o k ps h q hq q' hc
    obtain ⟨a, b, hab, rfl⟩ := squareEngine_noRepeats_offset (k := k) h q hq
    rw [closedAs_rect hc]
    intro s hs
    simp only [rect, segments, List.mem_cons, List.not_mem_nil, or_false] at hs
    rcases hs with rfl | rfl | rfl | rfl <;> simp [hab.ne, hab.ne']
  difference := by
    intro ps cs tree h n hn q' hc
    simp only [cleanEngine, Except.ok.injEq] at h
    subst h
    obtain ⟨p, hp, rfl⟩ := List.mem_map.mp hn
    have h2 := (List.mem_filter.mp hp).2
    simp only [Bool.and_eq_true, decide_eq_true_eq] at h2
    obtain ⟨-, rfl | ⟨a, h3, h4, -⟩, -⟩ := hc
    · exact h2.1
    · simp only [PolyNode.contour] at h3 h4
      rw [h2.2] at h3
      exact absurd h3 h4

/-- A pocket with two depths and a stepdown, from the faces to the moves. -/
def demoPocket : Except Err (List Motion) :=
  pocketClipper cleanEngine 9 demoInit [⟨rect 0 0 10 10, [], -1⟩, ⟨rect 20 20 24 24, [], -3⟩] [] (-1) 1 1 (-1) 2 (some 1)

example : ∃ cs, demoPocket = .ok cs ∧ 0 < demoInit.opSafeHeight ∧ demoInit.opSafeHeight ≤ demoInit.rapidHeight ∧
    cs.length = 46 := by
  have : (match demoPocket with | .ok cs => decide (cs.length = 46) | .error _ => false) = true := by decide +kernel
  cases h : demoPocket with
  | error e => rw [h] at this; cases this
  | ok cs =>
    rw [h] at this
    exact ⟨cs, rfl, by decide +kernel, by decide +kernel, by simpa using this⟩

end CQ
