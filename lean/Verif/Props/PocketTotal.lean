import Verif.Props.PocketAreas
import Verif.Props.Geometry
import Verif.Spec.PocketTotal

/-! # C104: a pocket that can be made is made -/

namespace CQ

theorem routeFace_total (j : Job) (stepover : Option ℚ) (pwe : Option Pt) (pos : AddrVec) {f : PathFace} (hne : f.outer ≠ [])
    (hs : ∀ s ∈ segments f.outer, s.1 ≠ s.2) : ∃ cs pwe', routeFace j stepover pwe pos f = .ok (cs, pwe') ∧ cs ≠ [] := by
  obtain ⟨near, hn⟩ : ∃ near, nearestTo pwe f.outer = .ok near := by
    cases pwe with
    | none => exact ⟨none, rfl⟩
    | some e =>
      rcases Nat.lt_or_ge f.outer.length 2 with h | h
      · exact ⟨none, (C32_other_paths e f.outer).2 (by omega)⟩
      · obtain ⟨n, hn, -⟩ := C32_nearest_on_path e f.outer h hs
        exact ⟨some n, hn⟩
  unfold routeFace
  split
  · rename_i h; exact absurd h hne
  · rename_i p0 ps hp
    rw [hp] at hn
    simp only [hp, hn]
    have ha : ∀ (x : Option Nearest), (match x with
        | some n => [cutTo j f.depth pos n.point]
        | none => rapidTo pos ⟨p0.x, p0.y, f.depth⟩ j.rapidHeight (some j.opSafeHeight) (some j.plungeFeed)) ≠ [] := by
      intro x
      cases x with
      | none => simp [rapidTo]
      | some n => simp
    cases near with
    | none => exact ⟨_, _, rfl, fun h => ha (shortLink stepover none) (List.append_eq_nil_iff.mp h).1⟩
    | some n => exact ⟨_, _, rfl, by simp⟩

theorem routeFaces_total (j : Job) (stepover : Option ℚ) {fs : List PathFace}
    (hf : ∀ f ∈ fs, f.outer ≠ [] ∧ ∀ s ∈ segments f.outer, s.1 ≠ s.2) (pwe : Option Pt) (pos : AddrVec) :
    ∃ cs, routeFaces j stepover pwe pos fs = .ok cs ∧ (fs ≠ [] → cs ≠ []) := by
  induction fs generalizing pwe pos with
  | nil => exact ⟨[], rfl, by simp⟩
  | cons f fs ih =>
    obtain ⟨cs, pwe', h1, h2⟩ := routeFace_total j stepover pwe pos (hf f (by simp)).1 (hf f (by simp)).2
    obtain ⟨rest, h3, -⟩ := ih (fun g hg => hf g (by simp [hg])) pwe' (lastFin pos cs)
    refine ⟨cs ++ rest, ?_, by simp [h2]⟩
    unfold routeFaces
    simp only [h1, h3]

theorem routeSequences_total (j : Job) (stepover : ℚ) {seqs : List (List PathFace)} (hne : ∀ s ∈ seqs, s ≠ [])
    (hf : ∀ s ∈ seqs, ∀ f ∈ s, f.outer ≠ [] ∧ ∀ s ∈ segments f.outer, s.1 ≠ s.2) (acc : List Motion) (pos : AddrVec) :
    ∃ cs, routeSequences j stepover acc pos seqs = .ok cs := by
  induction seqs generalizing acc pos with
  | nil => exact ⟨acc, rfl⟩
  | cons s ss ih =>
    obtain ⟨cs, h1, h2⟩ := routeFaces_total j (some stepover) (hf s (by simp)) none pos
    have h2 := h2 (hne s (by simp))
    have hlast : (acc ++ cs).getLast? = some ((acc ++ cs).getLast (by simp [h2])) := List.getLast?_eq_some_getLast _
    obtain ⟨r, h3⟩ := ih (fun x hx => hne x (by simp [hx])) (fun x hx => hf x (by simp [hx])) (acc ++ cs)
      ((acc ++ cs).getLast (by simp [h2])).fin
    refine ⟨r, ?_⟩
    unfold routeSequences
    rw [show routePolyfaceOuters j s (some stepover) (some pos) = .ok cs from h1, ok_bind]
    simp only [hlast, h3]

theorem offsetPath_total {eng : Clipper} {Good : List Pt → Prop} {μ : List Pt → ℚ} (he : Answers eng Good μ) {p : List Pt}
    (hp : Good p) (o : ℚ) (k : ℕ) : ∃ qs, offsetPath eng p o k = .ok qs ∧ (∀ q ∈ qs, Good q) ∧
      ∀ raw, eng.offset p o k = .ok raw → (∃ q ∈ raw, q ≠ []) → qs ≠ [] := by
  obtain ⟨raw, h1, h2⟩ := he.offset p o k hp
  obtain ⟨qs, h3⟩ := mapE_total (f := closePath) (as := raw.filter (fun p => decide (p ≠ [])))
    (fun c hc => closePath_total (by simpa using (List.mem_filter.mp hc).2))
  refine ⟨qs, by unfold offsetPath; rw [h1]; exact h3, ?_, ?_⟩
  · intro q hq
    obtain ⟨c, hc, hcq⟩ := mapE_mem h3 hq
    exact h2 c (List.mem_of_mem_filter hc) q (closedAs_of hcq)
  · rintro raw' hr ⟨q, hq, hne⟩ rfl
    rw [h1] at hr
    cases hr
    obtain ⟨b, hb, -⟩ := mapE_mem' h3 (a := q) (List.mem_filter.mpr ⟨hq, by simpa using hne⟩)
    simp at hb

/-- A face with good outlines. -/
def GoodFace (Good : List Pt → Prop) (f : PathFace) : Prop := Good f.outer ∧ ∀ i ∈ f.inners, Good i

theorem nodeToPolyFace_total {d : ℚ} {n : PolyNode} (h1 : n.contour ≠ []) (h2 : ∀ c ∈ n.childs, c.contour ≠ []) :
    ∃ f, nodeToPolyFace d n = .ok f := by
  obtain ⟨o, ho⟩ := closePath_total h1
  obtain ⟨is, hi⟩ := mapE_total (f := fun c : PolyNode => closePath c.contour) (as := n.childs)
    (fun c hc => closePath_total (h2 c hc))
  exact ⟨⟨o, is, d⟩, by unfold nodeToPolyFace; rw [ho, ok_bind, hi, ok_bind]⟩

theorem differencePolyTree_total {eng : Clipper} {Good : List Pt → Prop} {μ : List Pt → ℚ} (he : Answers eng Good μ)
    {ss cs : List (List Pt)} (hss : ss ≠ []) (hs : ∀ p ∈ ss, Good p) (hc : ∀ p ∈ cs, Good p) (d : ℚ) :
    ∃ fs, differencePolyTree eng ss cs d = .ok fs ∧ ∀ f ∈ fs, GoodFace Good f ∧ f.depth = d := by
  obtain ⟨tree, h1, h2⟩ := he.difference ss cs hss (by simpa [or_imp, forall_and] using ⟨hs, hc⟩)
  obtain ⟨fs, h3⟩ := mapE_total (f := nodeToPolyFace d) (as := tree)
    (fun n hn => nodeToPolyFace_total (h2 n hn).1 (fun c hc => ((h2 n hn).2.2 c hc).1))
  refine ⟨fs, by unfold differencePolyTree polyTreeToPolyFaces; rw [h1]; exact h3, ?_⟩
  intro f hf
  obtain ⟨n, hn, hnf⟩ := mapE_mem h3 hf
  unfold nodeToPolyFace at hnf
  obtain ⟨o, k1, hnf⟩ := bind_ok.mp hnf
  obtain ⟨is, k2, hnf⟩ := bind_ok.mp hnf
  cases hnf
  refine ⟨⟨((h2 n hn).2.1 o (closedAs_of k1)).1, ?_⟩, rfl⟩
  intro i hi
  obtain ⟨c, hc, hci⟩ := mapE_mem k2 hi
  exact ((h2 n hn).2.2 c hc).2 i (closedAs_of hci)

theorem unionPolyTree_total {eng : Clipper} {Good : List Pt → Prop} {μ : List Pt → ℚ} (he : Answers eng Good μ)
    {ss : List (List Pt)} (hss : ss ≠ []) (hs : ∀ p ∈ ss, Good p) (d : ℚ) :
    ∃ fs, unionPolyTree eng ss [] d = .ok fs ∧ fs ≠ [] ∧ ∀ f ∈ fs, Good f.outer := by
  obtain ⟨tree, h1, h0, h2⟩ := he.union ss hss hs
  obtain ⟨fs, h3⟩ := mapE_total (f := nodeToPolyFace d) (as := tree)
    (fun n hn => nodeToPolyFace_total (h2 n hn).1 (h2 n hn).2.2)
  refine ⟨fs, by unfold unionPolyTree polyTreeToPolyFaces; rw [h1]; exact h3, ?_, ?_⟩
  · rintro rfl
    obtain ⟨n, hn⟩ := List.exists_mem_of_ne_nil _ h0
    obtain ⟨b, hb, -⟩ := mapE_mem' h3 hn
    simp at hb
  · intro f hf
    obtain ⟨n, hn, hnf⟩ := mapE_mem h3 hf
    exact (h2 n hn).2.1 _ (closedAs_of (nodeToPolyFace_ok hnf).1)

theorem offsetPolyface_total {eng : Clipper} {Good : List Pt → Prop} {μ : List Pt → ℚ} (he : Answers eng Good μ)
    {f : PathFace} (hf : GoodFace Good f) (a b : ℚ) (k : ℕ)
    (hfit : f.inners ≠ [] → ∀ raw, eng.offset f.outer a k = .ok raw → ∃ q ∈ raw, q ≠ []) :
    ∃ gs, offsetPolyface eng f a b k = .ok gs ∧ ∀ g ∈ gs, GoodFace Good g ∧ g.depth = f.depth := by
  obtain ⟨outers, h1, h2, h3⟩ := offsetPath_total he hf.1 a k
  unfold offsetPolyface
  rw [h1, ok_bind]
  by_cases hi : f.inners = []
  · rw [if_neg (by simp [hi])]
    refine ⟨_, rfl, ?_⟩
    intro g hg
    obtain ⟨o, ho, rfl⟩ := List.mem_map.mp hg
    exact ⟨⟨h2 o ho, by simp⟩, rfl⟩
  · rw [if_pos hi]
    obtain ⟨inners, h4⟩ := mapE_total (f := fun i => offsetPath eng i b k) (as := f.inners)
      (fun i hi => ⟨_, (offsetPath_total he (hf.2 i hi) b k).choose_spec.1⟩)
    rw [h4, ok_bind]
    obtain ⟨raw, hr, -⟩ := he.offset f.outer a k hf.1
    refine differencePolyTree_total he (h3 raw hr (hfit hi raw hr)) h2 ?_ f.depth
    intro p hp
    obtain ⟨l, hl, hpl⟩ := List.mem_flatten.mp hp
    obtain ⟨i, hi, hil⟩ := mapE_mem h4 hl
    obtain ⟨qs, h5, h6, -⟩ := offsetPath_total he (hf.2 i hi) b k
    rw [h5] at hil
    cases hil
    exact h6 p hpl

theorem depthOps_total {eng : Clipper} {Good : List Pt → Prop} {μ : List Pt → ℚ} (he : Answers eng Good μ)
    {dm am : DepthMap} (hd : ∀ d, ∀ f ∈ dm.get d, GoodFace Good f) (ha : ∀ d, ∀ f ∈ am.get d, GoodFace Good f)
    (avoidDepths : List ℚ) {depth : ℚ} (h0 : dm.get depth ≠ []) (deeper : List ℚ) :
    ∃ ops, depthOps eng dm am avoidDepths depth deeper = .ok ops ∧ ∀ o ∈ ops, GoodFace Good o := by
  have hall : ∀ f ∈ dm.get depth ++ (deeper.map (fun d => dm.get d)).flatten, GoodFace Good f := by
    intro f hf
    rcases List.mem_append.mp hf with hf | hf
    · exact hd _ f hf
    · obtain ⟨l, hl, hf⟩ := List.mem_flatten.mp hf
      obtain ⟨d, -, rfl⟩ := List.mem_map.mp hl
      exact hd _ f hf
  obtain ⟨us, h1, h2, h3⟩ := unionPolyTree_total he
    (ss := (dm.get depth ++ (deeper.map (fun d => dm.get d)).flatten).map PathFace.outer) (by simp [h0])
    (by
      intro p hp
      obtain ⟨f, hf, rfl⟩ := List.mem_map.mp hp
      exact (hall f hf).1) depth
  have hin : ∀ p ∈ ((dm.get depth ++ (deeper.map (fun d => dm.get d)).flatten).map PathFace.inners).flatten, Good p := by
    intro p hp
    obtain ⟨l, hl, hpl⟩ := List.mem_flatten.mp hp
    obtain ⟨f, hf, rfl⟩ := List.mem_map.mp hl
    exact (hall f hf).2 p hpl
  have hus : ∀ p ∈ us.map PathFace.outer, Good p := by
    intro p hp
    obtain ⟨f, hf, rfl⟩ := List.mem_map.mp hp
    exact h3 f hf
  unfold depthOps combineOuters
  simp only [h1, ok_bind]
  split
  · obtain ⟨fs, h4, h5⟩ := differencePolyTree_total he (ss := us.map PathFace.outer) (by simp [h2]) hus
      (cs := ((dm.get depth ++ (deeper.map (fun d => dm.get d)).flatten).map PathFace.inners).flatten ++
        (((avoidDepths.filter (fun a => decide (depth ≤ a))).map (fun a => am.get a)).flatten).map PathFace.outer) (by
        intro p hp
        rcases List.mem_append.mp hp with hp | hp
        · exact hin p hp
        · obtain ⟨f, hf, rfl⟩ := List.mem_map.mp hp
          obtain ⟨l, hl, hf⟩ := List.mem_flatten.mp hf
          obtain ⟨d, -, rfl⟩ := List.mem_map.mp hl
          exact (ha _ f hf).1) depth
    exact ⟨fs, h4, fun o ho => (h5 o ho).1⟩
  · obtain ⟨fs, h4, h5⟩ := differencePolyTree_total he (ss := us.map PathFace.outer) (by simp [h2]) hus hin depth
    exact ⟨fs, h4, fun o ho => (h5 o ho).1⟩

theorem depthsOps_total {eng : Clipper} {Good : List Pt → Prop} {μ : List Pt → ℚ} (he : Answers eng Good μ)
    {dm am : DepthMap} (hd : ∀ d, ∀ f ∈ dm.get d, GoodFace Good f) (ha : ∀ d, ∀ f ∈ am.get d, GoodFace Good f)
    (avoidDepths : List ℚ) {ds : List ℚ} (h0 : ∀ d ∈ ds, dm.get d ≠ []) :
    ∃ ops, depthsOps eng dm am avoidDepths ds = .ok ops ∧ ∀ o ∈ ops, GoodFace Good o := by
  induction ds with
  | nil => exact ⟨[], rfl, by simp⟩
  | cons d ds ih =>
    obtain ⟨a, h1, h2⟩ := depthOps_total he hd ha avoidDepths (h0 d (by simp)) ds
    obtain ⟨b, h3, h4⟩ := ih (fun d hd => h0 d (by simp [hd]))
    refine ⟨a ++ b, by unfold depthsOps; rw [h1, ok_bind, h3, ok_bind], ?_⟩
    intro o ho
    rcases List.mem_append.mp ho with ho | ho
    · exact h2 o ho
    · exact h4 o ho

theorem buildPocketOps_total {eng : Clipper} {Good : List Pt → Prop} {μ : List Pt → ℚ} (he : Answers eng Good μ)
    {ops avoids : List PathFace} (h1 : ∀ f ∈ ops ++ avoids, GoodFace Good f ∧ f.depth ≤ 0) :
    ∃ regions, buildPocketOps eng ops avoids = .ok regions ∧ ∀ r ∈ regions, GoodFace Good r := by
  obtain ⟨dm, hdm⟩ := depthMapFrom_total (m := []) (fun f hf => (h1 f (List.mem_append_left _ hf)).2)
  obtain ⟨am, ham⟩ := depthMapFrom_total (m := []) (fun f hf => (h1 f (List.mem_append_right _ hf)).2)
  have k1 : generateDepthMap ops = .ok (dm, (dm.map Prod.fst).insertionSort (fun a b => b ≤ a)) := by
    unfold generateDepthMap; rw [hdm, ok_bind]
  have k2 : generateDepthMap avoids = .ok (am, (am.map Prod.fst).insertionSort (fun a b => b ≤ a)) := by
    unfold generateDepthMap; rw [ham, ok_bind]
  have d1 := generateDepthMap_ok k1
  have d2 := generateDepthMap_ok k2
  unfold buildPocketOps
  rw [k1, ok_bind]
  simp only [k2, ok_bind]
  refine depthsOps_total he ?_ ?_ _ ?_
  · intro d f hf
    rw [d1.get] at hf
    exact (h1 f (List.mem_append_left _ (List.mem_of_mem_filter hf))).1
  · intro d f hf
    rw [d2.get] at hf
    exact (h1 f (List.mem_append_right _ (List.mem_of_mem_filter hf))).1
  · intro d hd hn
    obtain ⟨f, hf, hfd⟩ := (d1.mem d).mp hd
    rw [d1.get] at hn
    have : f ∈ ops.filter (fun f => decide (f.depth = d)) := List.mem_filter.mpr ⟨hf, by simpa using hfd⟩
    rw [hn] at this
    simp at this

theorem closedAs_unique {c q q' : List Pt} (h : ClosedAs c q) (h' : ClosedAs c q') : q = q' := by
  obtain ⟨h1, h2, -⟩ := h
  obtain ⟨h1', h2', -⟩ := h'
  rcases h2 with rfl | ⟨a, ha, hb, rfl⟩ <;> rcases h2' with rfl | ⟨a', ha', hb', rfl⟩
  · rfl
  · rw [← h1.2] at hb'; exact absurd ha' hb'
  · rw [← h1'.2] at hb; exact absurd ha hb
  · rw [ha] at ha'; cases ha'; rfl

theorem answers_shrinks {eng : Clipper} {Good : List Pt → Prop} {μ : List Pt → ℚ} (he : Answers eng Good μ) {pocket : PathFace}
    (hp : GoodFace Good pocket) {step : ℚ} (hs : 0 < step) (k : ℕ) : ∃ δ, Shrinks eng pocket step k Good μ δ := by
  obtain ⟨δ, hδ, hsh⟩ := he.shrink step k hs
  refine ⟨δ, hδ, he.size, ?_, ?_⟩
  · intro p hg
    obtain ⟨raw, h1, h2⟩ := he.offset p (-step) k hg
    exact ⟨raw, h1, fun q hq q' hc => ⟨h2 q hq q' hc, hsh p hg raw h1 q hq q' hc⟩⟩
  · intro ps hne hg
    obtain ⟨tree, h1, h2⟩ := he.difference ps pocket.inners hne (by
      intro p hp'
      rcases List.mem_append.mp hp' with h | h
      · exact hg p h
      · exact hp.2 p h)
    refine ⟨tree, h1, ?_⟩
    intro n hn
    refine ⟨(h2 n hn).1, fun c hc => ((h2 n hn).2.2 c hc).1, ?_⟩
    obtain ⟨q, hq⟩ := closePath_total (h2 n hn).1
    obtain ⟨-, p, hp1, hp2⟩ := (h2 n hn).2.1 q (closedAs_of hq)
    refine ⟨p, hp1, fun q' hc => ⟨((h2 n hn).2.1 q' hc).1, ?_⟩⟩
    rwa [closedAs_unique hc (closedAs_of hq)]

theorem unfolds_all {α : Type} {R : α → List α → Prop} {Good : α → Prop} (hR : ∀ p cs, Good p → R p cs → ∀ c ∈ cs, Good c)
    {ps xs : List α} (h : Unfolds R ps xs) (hp : ∀ p ∈ ps, Good p) : ∀ x ∈ xs, Good x := by
  induction h with
  | nil => simp
  | @cons p ps cs xs ys hn _ _ ih1 ih2 =>
    intro x hx
    rcases List.mem_cons.mp hx with rfl | hx
    · exact hp _ (by simp)
    · rcases List.mem_append.mp hx with hx | hx
      · exact ih1 (hR p cs (hp p (by simp)) hn) x hx
      · exact ih2 (fun q hq => hp q (by simp [hq])) x hx

theorem follows_good {eng : Clipper} {Good : List Pt → Prop} {μ : List Pt → ℚ} (he : Answers eng Good μ) {pocket : PathFace}
    (hp : GoodFace Good pocket) {step : ℚ} {k : ℕ} {p : List Pt} {cs : List (List Pt)} (hg : Good p)
    (h : Follows eng pocket step k p cs) : ∀ c ∈ cs, Good c := by
  obtain ⟨raw, shrunk, h1, h2, h3⟩ := h
  obtain ⟨raw', h4, h5⟩ := he.offset p (-step) k hg
  rw [h1] at h4
  cases h4
  have hs : ∀ c ∈ shrunk, Good c := by
    intro c hc
    obtain ⟨q, hq, hqc⟩ := forall₂_mem_right h2 hc
    exact h5 q (List.mem_of_mem_filter hq) c hqc
  by_cases hcond : shrunk = [] ∨ pocket.inners = []
  · rw [if_pos hcond] at h3
    rw [h3]; exact hs
  · rw [if_neg hcond] at h3
    obtain ⟨tree, h6, h7⟩ := h3
    obtain ⟨tree', h8, h9⟩ := he.difference shrunk pocket.inners (fun h => hcond (.inl h)) (by
      intro p hp'
      rcases List.mem_append.mp hp' with h | h
      · exact hs p h
      · exact hp.2 p h)
    rw [h6] at h8
    cases h8
    intro c hc
    obtain ⟨n, hn, hnc⟩ := forall₂_mem_right h7 hc
    exact ((h9 n hn).2.1 c hnc).1

theorem fillPocket_good {eng : Clipper} {Good : List Pt → Prop} {μ : List Pt → ℚ} (he : Answers eng Good μ) {pocket : PathFace}
    (hp : GoodFace Good pocket) {step : ℚ} (hs : 0 < step) (k : ℕ) : ∃ rounds fill, ∀ fuel, rounds < fuel →
      fillPocket eng fuel pocket step k = .ok fill ∧ ∀ s ∈ fill, s ≠ [] ∧ ∀ f ∈ s, Good f.outer := by
  obtain ⟨δ, hsh⟩ := answers_shrinks he hp hs k
  obtain ⟨rounds, fill, h⟩ := C42_terminates hsh hp.1
  refine ⟨rounds, fill, fun fuel hf => ⟨h fuel hf, ?_⟩⟩
  obtain ⟨xs, h1, h2, -, h4⟩ := C42_complete (h fuel hf)
  intro s hsm
  refine ⟨(h4 s hsm).1, fun f hfm => ?_⟩
  have hx := h2.mem_iff.mp (List.mem_map.mpr ⟨f, List.mem_flatten.mpr ⟨s, hsm, hfm⟩, rfl⟩)
  exact unfolds_all (fun p cs hg hR => follows_good he hp hg hR) h1 (by simpa using hp.1) _ hx

theorem opSequences_total {eng : Clipper} {Good : List Pt → Prop} {μ : List Pt → ℚ} (he : Answers eng Good μ) {op : PathFace}
    (hp : GoodFace Good op) {stepover : ℚ} (hs : 0 < stepover) (stepdown : Option ℚ) (k : ℕ) (shallower : List PathFace) :
    ∃ rounds seqs, ∀ fuel, rounds < fuel → opSequences eng fuel stepover stepdown k shallower op = .ok seqs ∧
      ∀ s ∈ seqs, s ≠ [] ∧ ∀ f ∈ s, Good f.outer := by
  obtain ⟨rounds, fill, h⟩ := fillPocket_good he hp hs k
  by_cases hsd : stepdown = none ∨ stepdown = some 0
  · refine ⟨rounds, fill, fun fuel hf => ⟨?_, (h fuel hf).2⟩⟩
    unfold opSequences
    rw [(h fuel hf).1, ok_bind]
    rcases hsd with rfl | rfl <;> simp
  · push Not at hsd
    obtain ⟨sd, rfl⟩ := Option.ne_none_iff_exists'.mp hsd.1
    have hsd0 : sd ≠ 0 := fun h => hsd.2 (by rw [h])
    refine ⟨rounds, (arange ((determineStepdownStartDepth eng op shallower).getD 0 - sd) op.depth (-sd)).flatMap (fun d =>
        fill.map (fun q => q.map (fun f => f.cloneToDepth d))) ++ fill, fun fuel hf => ⟨?_, ?_⟩⟩
    · unfold opSequences
      rw [(h fuel hf).1, ok_bind]
      simp only [if_neg hsd0]
      rw [applyStepdown_fill (h fuel hf).1, ok_bind]
    · intro s hsm
      rcases List.mem_append.mp hsm with hsm | hsm
      · obtain ⟨d, -, hsm⟩ := List.mem_flatMap.mp hsm
        obtain ⟨q, hq, rfl⟩ := List.mem_map.mp hsm
        refine ⟨by simpa using ((h fuel hf).2 q hq).1, ?_⟩
        intro f hfm
        obtain ⟨g, hg, rfl⟩ := List.mem_map.mp hfm
        exact ((h fuel hf).2 q hq).2 g hg
      · exact (h fuel hf).2 s hsm

theorem allSequences_total {eng : Clipper} {Good : List Pt → Prop} {μ : List Pt → ℚ} (he : Answers eng Good μ)
    {stepover : ℚ} (hs : 0 < stepover) (stepdown : Option ℚ) (k : ℕ) {ops : List PathFace} (hp : ∀ o ∈ ops, GoodFace Good o)
    (shallower : List PathFace) :
    ∃ rounds seqs, ∀ fuel, rounds < fuel → allSequences eng fuel stepover stepdown k shallower ops = .ok seqs ∧
      ∀ s ∈ seqs, s ≠ [] ∧ ∀ f ∈ s, Good f.outer := by
  induction ops generalizing shallower with
  | nil => exact ⟨0, [], fun _ _ => ⟨rfl, by simp⟩⟩
  | cons o os ih =>
    obtain ⟨r1, a, h1⟩ := opSequences_total he (hp o (by simp)) hs stepdown k shallower
    obtain ⟨r2, b, h2⟩ := ih (fun o ho => hp o (by simp [ho])) (shallower ++ [o])
    refine ⟨max r1 r2, a ++ b, fun fuel hf => ⟨?_, ?_⟩⟩
    · unfold allSequences
      rw [(h1 fuel (by omega)).1, ok_bind, (h2 fuel (by omega)).1, ok_bind]
    · intro s hsm
      rcases List.mem_append.mp hsm with hsm | hsm
      · exact (h1 fuel (by omega)).2 s hsm
      · exact (h2 fuel (by omega)).2 s hsm

theorem fromCqFaces_good {veq : Vec → Vec → Bool} {k : ℕ} {Good : List Pt → Prop} {fs : List CqFace}
    (h : ∀ f ∈ fs, Usable veq k Good f) :
    ∃ gs, List.Forall₂ (FlatFace veq k) fs gs ∧ mapE (fun f => PathFace.fromCqFace veq f k) fs = .ok gs ∧
      ∀ g ∈ gs, GoodFace Good g ∧ g.depth ≤ 0 := by
  obtain ⟨gs, hg⟩ := mapE_total (f := fun f => PathFace.fromCqFace veq f k) (as := fs) (fun f hf =>
    fromCqFace_total (fun w hw => by obtain ⟨p, hp, -⟩ := (h f hf).2.2 w hw; exact ⟨p, hp⟩) (h f hf).1)
  have hfl := (mapE_ok.mp hg).imp fun _ _ => fromCqFace_spec
  refine ⟨gs, hfl, hg, ?_⟩
  intro g hgm
  obtain ⟨f, hf, hfg⟩ := forall₂_mem_right hfl hgm
  obtain ⟨-, h1, h2, h3⟩ := hfg
  obtain ⟨-, hz, hw⟩ := h f hf
  refine ⟨⟨?_, ?_⟩, by rw [h3]; exact hz⟩
  · obtain ⟨p, hp, hgood⟩ := hw f.outerWire (by simp)
    rw [h1] at hp; cases hp; exact hgood
  · intro i hi
    obtain ⟨w, hwm, hwi⟩ := forall₂_mem_right h2 hi
    obtain ⟨p, hp, hgood⟩ := hw w (by simp [hwm])
    rw [hwi] at hp; cases hp; exact hgood

theorem offsetPolyfaces_good {eng : Clipper} {Good : List Pt → Prop} {μ : List Pt → ℚ} (he : Answers eng Good μ)
    {veq : Vec → Vec → Bool} {k : ℕ} {fs : List CqFace} {gs : List PathFace} (hfl : List.Forall₂ (FlatFace veq k) fs gs)
    (hg : ∀ g ∈ gs, GoodFace Good g ∧ g.depth ≤ 0) (a b : ℚ)
    (hfit : ∀ f ∈ fs, f.innerWires ≠ [] → LeavesSome eng veq k a f) :
    ∃ os, mapE (fun f => offsetPolyface eng f a b k) gs = .ok os ∧ ∀ o ∈ os.flatten, GoodFace Good o ∧ o.depth ≤ 0 := by
  have key : ∀ g ∈ gs, ∃ os, offsetPolyface eng g a b k = .ok os ∧ ∀ o ∈ os, GoodFace Good o ∧ o.depth = g.depth := by
    intro g hgm
    obtain ⟨f, hf, -, h1, h2, h3⟩ := forall₂_mem_right hfl hgm
    refine offsetPolyface_total he (hg g hgm).1 a b k ?_
    intro hi raw hr
    refine hfit f hf ?_ _ raw h1 hr
    intro hn
    rw [hn] at h2
    cases h2' : g.inners with
    | nil => exact hi h2'
    | cons _ _ => rw [h2'] at h2; cases h2
  obtain ⟨os, ho⟩ := mapE_total (f := fun f => offsetPolyface eng f a b k) (as := gs) (fun g hgm => by
    obtain ⟨o, ho, -⟩ := key g hgm; exact ⟨o, ho⟩)
  refine ⟨os, ho, ?_⟩
  intro o hom
  obtain ⟨l, hl, hol⟩ := List.mem_flatten.mp hom
  obtain ⟨g, hgm, hgl⟩ := mapE_mem ho hl
  obtain ⟨l', hl', hall⟩ := key g hgm
  rw [hgl] at hl'
  cases hl'
  exact ⟨(hall o hol).1, by rw [(hall o hol).2]; exact (hg g hgm).2⟩

/-- C104 (what is missing: faces with holes whose outline is offset to nothing, see `C104_violated`).  A pocket of usable
faces with a tool diameter and a positive stepover is made, after a number of rounds of filling that is not bounded in the
code: the call returns commands, the same ones however many more rounds are allowed.  The engine is one that answers
questions about good contours; for a face with holes, something must be left of the outline after offsetting it. -/
theorem C104_pocket_partial {eng : Clipper} {Good : List Pt → Prop} {μ : List Pt → ℚ} (he : Answers eng Good μ)
    {veq : Vec → Vec → Bool} {opAreas avoidAreas : List CqFace} {a : PocketArgs} {j : Job} {diameter : ℚ}
    (hd : j.toolDiameter = some diameter) (h0 : diameter ≠ 0)
    (hf : ∀ f ∈ opAreas ++ avoidAreas, Usable veq j.precision Good f)
    (hstep : 0 < offsetDistance (diameter / 2) (1 / 2) a.stepover)
    (hfit : ∀ f ∈ opAreas, f.innerWires ≠ [] → LeavesSome eng veq j.precision
      (if avoidAreas ≠ [] ∧ a.outerOffset = none then 0 else offsetDistance (diameter / 2) (-1) a.outerOffset) f)
    (hfit' : ∀ f ∈ avoidAreas, f.innerWires ≠ [] → LeavesSome eng veq j.precision
      (offsetDistance (diameter / 2) 1 a.avoidOuterOffset) f) :
    ∃ rounds cs, ∀ fuel, rounds < fuel → pocket eng veq fuel opAreas avoidAreas a j = .ok cs := by
  have hr : j.toolRadius = some (diameter / 2) := by simp [Job.toolRadius, hd, h0]
  obtain ⟨ops, l1, h1, g1⟩ := fromCqFaces_good (fun f hm => hf f (List.mem_append_left _ hm))
  obtain ⟨avs, l2, h2, g2⟩ := fromCqFaces_good (fun f hm => hf f (List.mem_append_right _ hm))
  have houter : calculateOffset (diameter / 2) (if avoidAreas ≠ [] ∧ a.outerOffset = none then some (.mult 0) else a.outerOffset)
      (some (-1)) = (if avoidAreas ≠ [] ∧ a.outerOffset = none then 0 else offsetDistance (diameter / 2) (-1) a.outerOffset) := by
    rw [calculateOffset_distance]
    split
    · simp [offsetDistance]
    · rfl
  obtain ⟨o1, h3, g3⟩ := offsetPolyfaces_good he l1 g1 _ (offsetDistance (diameter / 2) 1 a.innerOffset) hfit
  obtain ⟨o2, h4, g4⟩ := offsetPolyfaces_good he l2 g2 _ (offsetDistance (diameter / 2) (-1) a.avoidInnerOffset) hfit'
  obtain ⟨regions, h5, g5⟩ := buildPocketOps_total he (ops := o1.flatten) (avoids := o2.flatten) (by
    intro f hm
    rcases List.mem_append.mp hm with hm | hm
    · exact g3 f hm
    · exact g4 f hm)
  obtain ⟨rounds, seqs, h6⟩ := allSequences_total he hstep a.stepdown j.precision g5 []
  have h7 := h6 (rounds + 1) (by omega)
  obtain ⟨cs, h8⟩ := routeSequences_total j (offsetDistance (diameter / 2) (1 / 2) a.stepover) (seqs := seqs)
    (fun s hs => (h7.2 s hs).1) (fun s hs f hf => he.points _ ((h7.2 s hs).2 f hf)) [] {}
  refine ⟨rounds, cs, fun fuel hfu => ?_⟩
  simp only [pocket, hr, h1, h2, ok_bind]
  rw [houter]
  simp only [calculateOffset_distance]
  unfold pocketClipper
  rw [h3, ok_bind, h4, ok_bind, h5, ok_bind, (h6 fuel hfu).1, ok_bind]
  exact h8

/-! ### Example and counterexample -/

/-- Like `squareEngine`, but it keeps what is cut out as holes, and like pyclipper's `AddPaths` it refuses an empty list of
subjects. -/
def pickyEngine : Clipper where
  offset := squareEngine.offset
  union ss _ := if ss = [] then .error .runtimeError else .ok (ss.map (fun s => .node s []))
  difference ss cs := if ss = [] then .error .runtimeError else .ok (ss.map (fun s => .node s (cs.map (fun c => .node c []))))
  contains _ _ := false

/-- The path is a square on the diagonal. -/
def IsSquare (p : List Pt) : Prop := ∃ a b, a < b ∧ p = rect a a b b

def squareSide (p : List Pt) : ℚ := match p with | [a, _, c, _, _] => c.x - a.x | _ => 0

theorem pickyEngine_answers : Answers pickyEngine IsSquare squareSide where
  points := by
    rintro p ⟨a, b, hab, rfl⟩
    refine ⟨by simp [rect], ?_⟩
    simp only [rect, segments, List.mem_cons, List.not_mem_nil, or_false]
    rintro s (rfl | rfl | rfl | rfl) h <;> simp only [Pt.mk.injEq] at h <;> linarith [h.1, h.2]
  size := by rintro p ⟨a, b, hab, rfl⟩; simp only [rect, squareSide]; linarith
  offset := by
    rintro p o k ⟨a, b, hab, rfl⟩
    by_cases h : a - o < b + o
    · refine ⟨[rect (a - o) (a - o) (b + o) (b + o)], if_pos h, ?_⟩
      intro q hq q' hc
      rw [List.mem_singleton] at hq
      subst hq
      rw [closedAs_rect hc]
      exact ⟨_, _, h, rfl⟩
    · exact ⟨[], if_neg h, by simp⟩
  shrink := by
    intro s k hs
    refine ⟨2 * s, by linarith, ?_⟩
    rintro p ⟨a, b, hab, rfl⟩ raw hr q hq q' hc
    by_cases h : a - -s < b + -s
    · rw [show pickyEngine.offset (rect a a b b) (-s) k = .ok [rect (a - -s) (a - -s) (b + -s) (b + -s)] from if_pos h] at hr
      cases hr
      rw [List.mem_singleton] at hq
      subst hq
      rw [closedAs_rect hc]
      simp only [rect, squareSide]; linarith
    · rw [show pickyEngine.offset (rect a a b b) (-s) k = .ok [] from if_neg h] at hr
      cases hr
      simp at hq
  union := by
    intro ss hne hg
    refine ⟨_, if_neg hne, by simpa using hne, ?_⟩
    intro n hn
    obtain ⟨p, hp, rfl⟩ := List.mem_map.mp hn
    obtain ⟨a, b, hab, rfl⟩ := hg p hp
    refine ⟨by simp [PolyNode.contour, rect], fun q hc => ?_, by simp [PolyNode.childs]⟩
    rw [closedAs_rect hc]
    exact ⟨a, b, hab, rfl⟩
  difference := by
    intro ss cs hne hg
    refine ⟨_, if_neg hne, ?_⟩
    intro n hn
    obtain ⟨p, hp, rfl⟩ := List.mem_map.mp hn
    obtain ⟨a, b, hab, rfl⟩ := hg p (List.mem_append_left _ hp)
    refine ⟨by simp [PolyNode.contour, rect], fun q hc => ?_, ?_⟩
    · rw [closedAs_rect hc]
      exact ⟨⟨a, b, hab, rfl⟩, _, hp, le_rfl⟩
    · intro c hcm
      obtain ⟨q, hq, rfl⟩ := List.mem_map.mp hcm
      obtain ⟨a', b', hab', rfl⟩ := hg q (List.mem_append_right _ hq)
      refine ⟨by simp [PolyNode.contour, rect], fun q' hc => ?_⟩
      rw [closedAs_rect hc]
      exact ⟨a', b', hab', rfl⟩

/-- A square hole of side 2 in the middle of the square face. -/
def squareHole : List Edge :=
  outline [(11, ⟨2, 2⟩, ⟨4, 2⟩, 2), (12, ⟨4, 2⟩, ⟨4, 4⟩, 2), (13, ⟨4, 4⟩, ⟨2, 4⟩, 2), (14, ⟨2, 4⟩, ⟨2, 2⟩, 2)]

def holedSquareFace : CqFace := ⟨innerSquare, [squareHole], -1, -1⟩

theorem innerSquare_path (k : ℕ) : wireToPath exactEq innerSquare k = .ok (rect 0 0 6 6) := rfl

theorem squareHole_path (k : ℕ) : wireToPath exactEq squareHole k = .ok (rect 2 2 4 4) := rfl

theorem squareFaces_usable (k : ℕ) : Usable exactEq k IsSquare squareFace ∧ Usable exactEq k IsSquare holedSquareFace := by
  refine ⟨⟨rfl, by norm_num [squareFace], ?_⟩, rfl, by norm_num [holedSquareFace], ?_⟩
  · simp only [squareFace, List.mem_singleton, forall_eq]
    exact ⟨_, innerSquare_path k, 0, 6, by norm_num, rfl⟩
  · simp only [holedSquareFace, List.mem_cons, List.not_mem_nil, or_false, forall_eq_or_imp, forall_eq]
    exact ⟨⟨_, innerSquare_path k, 0, 6, by norm_num, rfl⟩, _, squareHole_path k, 2, 4, by norm_num, rfl⟩

/-- The hypotheses are met by the square with a hole and a tool of diameter 2. -/
example : ∃ rounds cs, ∀ fuel, rounds < fuel → pocket pickyEngine exactEq fuel [holedSquareFace] [squareFace] {} areaJob = .ok cs := by
  refine C104_pocket_partial pickyEngine_answers (diameter := 2) rfl (by norm_num) ?_ (by norm_num [offsetDistance]) ?_ ?_
  · intro f hf
    simp only [List.cons_append, List.nil_append, List.mem_cons, List.not_mem_nil, or_false] at hf
    rcases hf with rfl | rfl
    · exact (squareFaces_usable _).2
    · exact (squareFaces_usable _).1
  · intro f hf _ p raw hp hr
    rw [List.mem_singleton] at hf
    subst hf
    rw [show wireToPath exactEq holedSquareFace.outerWire areaJob.precision = .ok (rect 0 0 6 6) from rfl] at hp
    cases hp
    rw [if_pos ⟨by simp, rfl⟩] at hr
    rw [show pickyEngine.offset (rect 0 0 6 6) 0 areaJob.precision = .ok [rect 0 0 6 6] from by decide +kernel] at hr
    cases hr
    exact ⟨_, List.mem_singleton.mpr rfl, by simp [rect]⟩
  · intro f hf hn
    rw [List.mem_singleton] at hf
    subst hf
    exact absurd rfl hn

/-- A tool that does not fit in the square. -/
def bigJob : Job := { areaJob with toolDiameter := some 12 }

theorem bigJob_radius : bigJob.toolRadius = some 6 := by decide +kernel

/-- C104 is false for faces with holes that the tool does not fit in.  With a tool of diameter 12 nothing is left of a square
of side 6: the pocket of the square is an operation without commands, while the same square with a hole is refused by the
geometry library, which is asked for the difference of no contours. -/
theorem C104_violated : ∃ (eng : Clipper) (Good : List Pt → Prop) (μ : List Pt → ℚ) (j : Job) (plain holed : CqFace),
    Answers eng Good μ ∧ j.toolDiameter = some 12 ∧ Usable exactEq j.precision Good plain ∧
    Usable exactEq j.precision Good holed ∧ plain.outerWire = holed.outerWire ∧ plain.innerWires = [] ∧
    (∀ fuel, pocket eng exactEq fuel [plain] [] {} j = .ok []) ∧
    ∀ fuel, pocket eng exactEq fuel [holed] [] {} j = .error .runtimeError := by
  refine ⟨pickyEngine, IsSquare, squareSide, bigJob, squareFace, holedSquareFace,
    pickyEngine_answers, rfl, (squareFaces_usable _).1, (squareFaces_usable _).2, rfl, rfl, ?_, ?_⟩
  · intro fuel
    have h0 : mapE (fun f => PathFace.fromCqFace exactEq f bigJob.precision) [squareFace] = .ok [⟨rect 0 0 6 6, [], -1⟩] := by
      decide +kernel
    have h1 : mapE (fun f => offsetPolyface pickyEngine f (-6) 6 bigJob.precision) [⟨rect 0 0 6 6, [], -1⟩] = .ok [[]] := by
      decide +kernel
    simp only [pocket, bigJob_radius]
    rw [h0, ok_bind, show mapE (fun f => PathFace.fromCqFace exactEq f bigJob.precision) [] = .ok [] from rfl, ok_bind,
      if_neg (by simp), calculateOffset_distance, calculateOffset_distance, show offsetDistance 6 (-1) ({} : PocketArgs).outerOffset = -6 from by
        norm_num [offsetDistance], show offsetDistance 6 1 ({} : PocketArgs).innerOffset = 6 from by norm_num [offsetDistance]]
    unfold pocketClipper
    rw [h1]
    rfl
  · intro fuel
    have h0 : mapE (fun f => PathFace.fromCqFace exactEq f bigJob.precision) [holedSquareFace] =
      .ok [⟨rect 0 0 6 6, [rect 2 2 4 4], -1⟩] := by decide +kernel
    have h1 : mapE (fun f => offsetPolyface pickyEngine f (-6) 6 bigJob.precision) [⟨rect 0 0 6 6, [rect 2 2 4 4], -1⟩] =
      .error .runtimeError := by decide +kernel
    simp only [pocket, bigJob_radius]
    rw [h0, ok_bind, show mapE (fun f => PathFace.fromCqFace exactEq f bigJob.precision) [] = .ok [] from rfl, ok_bind,
      if_neg (by simp), calculateOffset_distance, calculateOffset_distance, show offsetDistance 6 (-1) ({} : PocketArgs).outerOffset = -6 from by
        norm_num [offsetDistance], show offsetDistance 6 1 ({} : PocketArgs).innerOffset = 6 from by norm_num [offsetDistance]]
    unfold pocketClipper
    rw [h1]
    rfl

end CQ
