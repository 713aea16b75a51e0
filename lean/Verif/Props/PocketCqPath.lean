import Verif.Props.PocketCq

/-! # C84, C85: contours and tool path of pockets made with the CAD kernel (`engine="cq"`) -/

namespace CQ

/-! ### Trees by identity -/

theorem built_map {α β : Type} (f : α → β) {t : CTree α} (h : Built t) :
    Built (t.map (fun n => ({ obj := f n.obj, parent := n.parent, locked := n.locked } : TNode β))) := by
  induction h with
  | init r => exact .init (f r)
  | lock t i _ ih =>
    have := Built.lock _ i ih
    convert this using 1
    unfold CTree.lock
    apply List.ext_getElem?
    intro k
    rw [List.getElem?_map, List.getElem?_modify, List.getElem?_modify, List.getElem?_map]
    cases t[k]? with
    | none => simp
    | some n => by_cases hk : i = k <;> simp [hk]
  | branch t i os _ hi ih =>
    have := Built.branch _ i (os.map f) ih (by simpa using hi)
    convert this using 1
    unfold CTree.branch
    rw [List.map_append, List.map_map, List.map_map]
    rfl

theorem idSequences_ok {α : Type} [Inhabited α] {next : α → Except Err (List α)} {t : FTree α} (inv : FillInv next t) :
    t.idSequences.flatten.Perm (allPaths t) ∧
      ∀ s ∈ t.idSequences, s ≠ [] ∧ List.IsChain (fun a b => ∃ cs, next b = .ok cs ∧ a ∈ cs) s := by
  unfold CTree.idSequences
  generalize hT : (t.map (fun n => ({ obj := n.obj.1, parent := n.parent, locked := n.locked } : TNode ℕ)) : CTree ℕ) = T
  have hb : Built T := hT ▸ built_map Prod.fst inv.built
  have hobjs : CTree.objs T = List.range t.length := by
    rw [← hT]
    unfold CTree.objs
    apply List.ext_getElem?
    intro k
    rw [List.map_map, List.getElem?_map]
    by_cases hk : k < t.length
    · rw [List.getElem?_range hk, List.getElem?_eq_getElem hk]
      simp only [Option.map_some, Function.comp]
      rw [inv.ids k _ (List.getElem?_eq_getElem hk)]
    · rw [List.getElem?_eq_none (by simpa using hk), List.getElem?_eq_none (by simpa using hk)]
      rfl
  obtain ⟨g1, -, g3⟩ := C41_sequences T hb (by rw [hobjs]; exact List.nodup_range)
  rw [hobjs] at g1
  have hT' : ∀ (i : ℕ) (a : TNode ℕ), T[i]? = some a → ∃ n, t[i]? = some n ∧ n.parent = a.parent ∧ a.obj = i ∧ pathAt t i = n.obj.2 := by
    intro i a ha
    rw [← hT, List.getElem?_map] at ha
    obtain ⟨n, hn, rfl⟩ := Option.map_eq_some_iff.mp ha
    exact ⟨n, hn, rfl, inv.ids i n hn, by unfold pathAt; rw [hn]⟩
  refine ⟨?_, ?_⟩
  · rw [← List.filterMap_flatten]
    refine (g1.filterMap _).trans (List.Perm.of_eq ?_)
    unfold allPaths
    clear g1 g3 hobjs hb hT' inv hT
    induction t using List.reverseRecOn with
    | nil => rfl
    | append_singleton t n ih =>
      rw [List.length_append, List.length_singleton, List.range_succ, List.filterMap_append, List.map_append, ← ih]
      congr 1
      · apply List.filterMap_congr
        intro k hk
        rw [List.getElem?_append_left (List.mem_range.mp hk)]
      · simp
  · intro s hs
    obtain ⟨s', hs', rfl⟩ := List.mem_map.mp hs
    have hlt : ∀ i ∈ s', i < t.length := by
      intro i hi
      exact List.mem_range.mp (g1.mem_iff.mp (List.mem_flatten.mpr ⟨s', hs', hi⟩))
    have hmap : s'.filterMap (fun i => (t[i]?).map (fun n => n.obj.2)) = s'.map (pathAt t) := by
      rw [← List.filterMap_eq_map]
      apply List.filterMap_congr
      intro i hi
      unfold pathAt
      simp only [List.getElem?_eq_getElem (hlt i hi), Option.map_some, Function.comp]
    rw [hmap]
    obtain ⟨pre, post, hsp⟩ := List.append_of_mem hs'
    obtain ⟨i1, ⟨x, i2, -⟩, -⟩ := g3 pre s' post hsp
    refine ⟨?_, ?_⟩
    · intro h0
      rw [List.map_eq_nil_iff] at h0
      rw [h0] at i2; cases i2
    · rw [List.isChain_map]
      refine i1.imp ?_
      rintro a b ⟨i, p, n, m, j1, j2, j3, rfl, rfl⟩
      obtain ⟨n', a1, a2, a3, a4⟩ := hT' i n j1
      obtain ⟨m', b1, b2, b3, b4⟩ := hT' p m j3
      obtain ⟨m'', cs, k1, k2, k3⟩ := inv.link i p n' a1 (a2.trans j2)
      rw [b1] at k1
      cases k1
      rw [a3, b3, a4, b4]
      exact ⟨cs, k2, k3⟩

/-! ### C84: the contours -/

theorem offsetWire_shrunk {cad : Cad} (hrel : ∀ v w, cad.relocate v w = w) {w : List Edge} {d : ℚ} {ws : List (List Edge)}
    (h : offsetWire cad w d = .ok ws) : ShrunkTo cad w d ws := by
  obtain ⟨found, h4, h2⟩ := bind_ok.mp h
  have hbase : ws = found.filter (offsetValid cad) := by
    cases h2
    unfold circleBugWorkaround
    have : ∀ v ws, List.map (cad.relocate v) ws = ws := by
      intro v ws
      rw [show cad.relocate v = id from funext (hrel v), List.map_id]
    split
    · split
      · exact this _ _
      · rfl
    · rfl
  have hcurves : ∀ c ∈ found, c ∈ ws ↔ ∃ a, cad.area c = .ok a ∧ 1 / 10 < a := by
    intro c hc
    rw [hbase, List.mem_filter]
    simp only [hc, true_and, offsetValid]
    cases cad.area c with
    | error e => simp
    | ok a => simp
  have hsub : ws.Sublist found := by rw [hbase]; exact List.filter_sublist
  unfold tryOffset at h4
  cases ho : cad.offset2D w d with
  | ok f =>
    rw [ho] at h4
    cases h4
    exact Or.inl ⟨found, Or.inl ho, hsub, hcurves⟩
  | error e =>
    rw [ho] at h4
    by_cases he : e = .valueError
    · subst he
      simp only at h4
      cases ho2 : cad.offset2D w (d + 1 / 1000000) with
      | ok f =>
        rw [ho2] at h4
        cases h4
        exact Or.inl ⟨found, Or.inr ⟨ho, ho2⟩, hsub, hcurves⟩
      | error e2 =>
        rw [ho2] at h4
        by_cases he2 : e2 = .valueError
        · subst he2
          cases h4
          exact Or.inr ⟨ho, ho2, by rw [hbase]; rfl⟩
        · exfalso
          cases e2 <;> first | exact he2 rfl | cases h4
    · exfalso
      cases e <;> first | exact he rfl | cases h4

theorem cqRemains_left {F : Type} {k : FaceKernelCq F} {holes : List F} {w : List Edge} {cs : List (List Edge)}
    (h : cqRemains k holes w = .ok cs) : LeftOf k holes w cs := by
  unfold cqRemains at h
  cases hm : k.make w [] with
  | ok f =>
    rw [hm] at h
    obtain ⟨fs, h1, h⟩ := bind_ok.mp h
    cases h
    exact .inl ⟨f, fs, hm, h1, rfl⟩
  | error e =>
    rw [hm] at h
    by_cases he : e = .stdFail
    · subst he
      cases h
      exact .inr ⟨hm, rfl⟩
    · exfalso
      cases e <;> first | exact he rfl | cases h

theorem cqNextOuters_follows {F : Type} {k : FaceKernelCq F} (hrel : ∀ v w, k.cad.relocate v w = w) {holes : List F} {step : ℚ}
    {w : List Edge} {cs : List (List Edge)} (h : cqNextOuters k holes step w = .ok cs) : FollowsCq k holes step w cs := by
  obtain ⟨cands, h1, h⟩ := bind_ok.mp h
  refine ⟨cands, offsetWire_shrunk hrel h1, ?_⟩
  by_cases hh : holes = []
  · rw [if_neg (by simpa using hh)] at h
    cases h
    rw [if_pos hh]
  · rw [if_pos hh] at h
    rw [if_neg hh]
    obtain ⟨rs, h2, h⟩ := bind_ok.mp h
    cases h
    exact ⟨rs, (mapE_ok.mp h2).imp (fun _ _ h => cqRemains_left h), rfl⟩

/-- C84, completeness.  Whenever filling a pocket with contours ends, the contours in the resulting sequences are exactly the
outline of the pocket and everything obtained from it by repeated shrinking and removal of the holes, each once; no sequence
is empty, and within a sequence each contour is followed by the one it was obtained from.  (The workaround for misplaced
circles is taken to change nothing: `hrel`.) -/
theorem C84_complete {F : Type} {k : FaceKernelCq F} (hrel : ∀ v w, k.cad.relocate v w = w) {fuel : ℕ} {step : ℚ} {pocket : F}
    {seqs : List (List (List Edge))} (h : cqFillPocket k fuel step pocket = .ok seqs) :
    ∃ holes contours, List.Forall₂ (fun w f => k.make w [] = .ok f) (k.innerWires pocket) holes ∧
      Unfolds (FollowsCq k holes step) [k.outerWire pocket] contours ∧
      seqs.flatten.Perm contours ∧
      ∀ s ∈ seqs, s ≠ [] ∧ List.IsChain (fun a b => ∃ cs, FollowsCq k holes step b cs ∧ a ∈ cs) s := by
  unfold cqFillPocket at h
  obtain ⟨holes, hh, h⟩ := bind_ok.mp h
  obtain ⟨t, ht, h⟩ := bind_ok.mp h
  cases h
  obtain ⟨inv, ys, hu, hp⟩ := fillLoop_sound (init_inv (k.outerWire pocket)) ht
  obtain ⟨g1, g2⟩ := idSequences_ok inv
  refine ⟨holes, ys, mapE_ok.mp hh, hu.mono (fun p cs h => cqNextOuters_follows hrel h), ?_, ?_⟩
  · exact g1.trans (by simpa using hp [] (List.Perm.refl _))
  · intro s hs
    obtain ⟨a, b⟩ := g2 s hs
    refine ⟨a, b.imp ?_⟩
    rintro a b ⟨cs, h1, h2⟩
    exact ⟨cs, cqNextOuters_follows hrel h1, h2⟩

/-- A kernel for which, starting from good contours, shrinking works, gives good contours again and makes them smaller by at
least `δ` as measured by `μ`, and removing the holes works and does not make a contour larger. -/
structure ShrinksCq {F : Type} (k : FaceKernelCq F) (holes : List F) (step : ℚ) (Good : List Edge → Prop) (μ : List Edge → ℚ)
    (δ : ℚ) : Prop where
  amount : 0 < δ
  size : ∀ w, Good w → 0 ≤ μ w
  shrink : ∀ w, Good w → ∃ found, k.cad.offset2D w (-step) = .ok found ∧ ∀ c ∈ found, Good c ∧ μ c + δ ≤ μ w
  holes : holes ≠ [] → ∀ w, Good w → k.make w [] = .error .stdFail ∨ ∃ f fs, k.make w [] = .ok f ∧ k.cut f holes = .ok fs ∧
    ∀ o ∈ fs, Good (k.outerWire o) ∧ μ (k.outerWire o) ≤ μ w

theorem cqNextOuters_shrinks {F : Type} {k : FaceKernelCq F} (hrel : ∀ v w, k.cad.relocate v w = w) {holes : List F} {step : ℚ}
    {Good : List Edge → Prop} {μ : List Edge → ℚ} {δ : ℚ} (h : ShrinksCq k holes step Good μ δ) {w : List Edge} (hw : Good w) :
    ∃ cs, cqNextOuters k holes step w = .ok cs ∧ ∀ c ∈ cs, Good c ∧ μ c + δ ≤ μ w := by
  obtain ⟨found, h1, h2⟩ := h.shrink w hw
  obtain ⟨ws, hws⟩ : ∃ ws, offsetWire k.cad w (-step) = .ok ws := by
    unfold offsetWire tryOffset
    rw [h1]
    exact ⟨_, rfl⟩
  have hgood : ∀ c ∈ ws, Good c ∧ μ c + δ ≤ μ w := by
    rcases offsetWire_shrunk hrel hws with ⟨f', h3 | ⟨h3, -⟩, h4, -⟩ | ⟨h3, -⟩
    · rw [h1] at h3
      cases h3
      exact fun c hc => h2 c (h4.subset hc)
    · rw [h1] at h3; cases h3
    · rw [h1] at h3; cases h3
  unfold cqNextOuters
  rw [hws, ok_bind]
  by_cases hh : holes = []
  · rw [if_neg (by simpa using hh)]
    exact ⟨ws, rfl, hgood⟩
  · rw [if_pos hh]
    have hrem : ∀ c ∈ ws, ∃ cs, cqRemains k holes c = .ok cs ∧ ∀ x ∈ cs, Good x ∧ μ x + δ ≤ μ w := by
      intro c hc
      have hcw := hgood c hc
      unfold cqRemains
      rcases h.holes hh c hcw.1 with he | ⟨f, fs, h3, h4, h5⟩
      · rw [he]; exact ⟨[], rfl, by simp⟩
      · rw [h3]
        simp only [h4, ok_bind]
        refine ⟨_, rfl, ?_⟩
        intro x hx
        obtain ⟨o, ho, rfl⟩ := List.mem_map.mp hx
        have := h5 o ho
        exact ⟨this.1, by linarith [this.2, hcw.2]⟩
    obtain ⟨rs, hrs⟩ := mapE_total (f := cqRemains k holes) (as := ws) (fun c hc => ⟨_, (hrem c hc).choose_spec.1⟩)
    refine ⟨rs.flatten, by rw [hrs]; rfl, ?_⟩
    intro x hx
    obtain ⟨l, hl, hx⟩ := List.mem_flatten.mp hx
    obtain ⟨c, hc, hcl⟩ := mapE_mem hrs hl
    obtain ⟨cs, h6, h7⟩ := hrem c hc
    rw [h6] at hcl
    cases hcl
    exact h7 x hx

/-- C84, termination.  If faces can be made of the holes and shrinking always makes contours smaller by at least a fixed
amount, filling a pocket terminates: after some number of rounds the loop has ended, with a result that does not depend on how
many rounds were allowed. -/
theorem C84_terminates {F : Type} {k : FaceKernelCq F} (hrel : ∀ v w, k.cad.relocate v w = w) {pocket : F} {holes : List F}
    (hh : List.Forall₂ (fun w f => k.make w [] = .ok f) (k.innerWires pocket) holes) {step : ℚ} {Good : List Edge → Prop}
    {μ : List Edge → ℚ} {δ : ℚ} (h : ShrinksCq k holes step Good μ δ) (hp : Good (k.outerWire pocket)) :
    ∃ rounds seqs, ∀ fuel, rounds < fuel → cqFillPocket k fuel step pocket = .ok seqs := by
  obtain ⟨xs, hx⟩ := unfolds_of_measure (R := Graph (cqNextOuters k holes step)) (Good := Good) h.amount h.size
    (fun p hp => cqNextOuters_shrinks hrel h hp) [k.outerWire pocket] (by simpa using hp)
  obtain ⟨t, ht⟩ := fillLoop_total (init_inv (k.outerWire pocket)) hx (Nat.lt_succ_self _)
  refine ⟨xs.length, t.idSequences, fun fuel hf => ?_⟩
  unfold cqFillPocket
  rw [mapE_ok.mpr hh, ok_bind, fillLoop_mono ht (by omega)]
  rfl

/-- Without shrinking (a stepover of 0, and a kernel that gives the contour itself when asked to offset it by 0) filling a
pocket without holes never ends. -/
theorem C84_zero_stepover_endless {F : Type} (k : FaceKernelCq F) (hrel : ∀ v w, k.cad.relocate v w = w) (pocket : F)
    (hi : k.innerWires pocket = []) (h0 : k.cad.offset2D (k.outerWire pocket) 0 = .ok [k.outerWire pocket])
    (ha : ∃ a, k.cad.area (k.outerWire pocket) = .ok a ∧ 1 / 10 < a) (fuel : ℕ) (seqs : List (List (List Edge))) :
    cqFillPocket k fuel 0 pocket ≠ .ok seqs := by
  intro h
  obtain ⟨holes, xs, hh, hx, -⟩ := C84_complete hrel h
  rw [hi] at hh
  cases hh
  refine unfolds_self ?_ (List.mem_singleton.mpr rfl) hx
  rintro cs ⟨shrunk, h1, h2⟩
  rw [if_pos rfl] at h2
  subst h2
  rw [neg_zero] at h1
  rcases h1 with ⟨f, h3 | ⟨h3, -⟩, -, h5⟩ | ⟨h3, -⟩
  · rw [h0] at h3
    cases h3
    exact (h5 _ (by simp)).mpr ha
  · rw [h0] at h3; cases h3
  · rw [h0] at h3; cases h3

/-- A kernel whose faces are wires: the outer square of `squaresSearch` shrunk by 1 is the inner one, and nothing is left of
that. -/
def wireKernel : FaceKernelCq (List Edge) where
  cad := { flatCad with
    search := squaresSearch
    offset2D := fun w d =>
      if d = 0 then .ok [w] else if w.head?.map Edge.id = some 5 ∧ d = -1 then .ok [innerSquare] else .ok [] }
  outerWire w := w
  innerWires _ := []
  zmax _ := -1
  translate v w := w.map (Edge.up v.z)
  combine ws := .ok ws
  cut w _ := .ok [w]
  make o _ := .ok o

theorem wireKernel_shrinks (holes : List (List Edge)) :
    ShrinksCq wireKernel holes 1 (fun _ => True) (fun w => if w.head?.map Edge.id = some 5 then 1 else 0) 1 where
  amount := by norm_num
  size := by intro w _; split <;> norm_num
  shrink := by
    intro w _
    by_cases hw : w.head?.map Edge.id = some 5
    · refine ⟨[innerSquare], ?_, ?_⟩
      · have h0 : ¬ ((-1 : ℚ) = 0) := by norm_num
        simp only [wireKernel, if_neg h0, hw, and_self, if_true]
      · intro c hc
        rw [List.mem_singleton] at hc
        subst hc
        rw [if_pos hw]
        refine ⟨trivial, ?_⟩
        rw [if_neg (by decide +kernel)]
        norm_num
    · refine ⟨[], ?_, by simp⟩
      have h0 : ¬ ((-1 : ℚ) = 0) := by norm_num
      simp only [wireKernel, if_neg h0, hw, false_and, if_false]
  holes := by
    intro _ w _
    exact .inr ⟨w, [w], rfl, rfl, by simp [wireKernel]⟩

/-- The hypotheses of `C84_complete` and `C84_terminates` are met, with two contours in one sequence. -/
example : (∀ v w, wireKernel.cad.relocate v w = w) ∧
    (∃ rounds seqs, ∀ fuel, rounds < fuel → cqFillPocket wireKernel fuel 1 outerSquare = .ok seqs) ∧
    (match cqFillPocket wireKernel 4 1 outerSquare with
      | .ok ss => ss.map (List.map (List.map Edge.id)) | .error _ => []) = [[[1, 2, 3, 4], [5, 6, 7, 8]]] :=
  ⟨fun _ _ => rfl, C84_terminates (holes := []) (fun _ _ => rfl) .nil (wireKernel_shrinks _) trivial, by decide +kernel⟩

example (fuel : ℕ) (seqs : List (List (List Edge))) : cqFillPocket wireKernel fuel 0 outerSquare ≠ .ok seqs :=
  C84_zero_stepover_endless _ (fun _ _ => rfl) _ rfl rfl ⟨1, rfl, by norm_num⟩ _ _

/-! ### C85: the tool path -/

theorem offsetFace_to {F : Type} {k : FaceKernelCq F} (hrel : ∀ v w, k.cad.relocate v w = w) {outer inner : ℚ} {f : F} {fs : List F}
    (h : offsetFace k outer inner f = .ok fs) : OffsetFaceTo k outer inner f fs := by
  obtain ⟨outers, h1, h⟩ := bind_ok.mp h
  obtain ⟨inners, h2, h⟩ := bind_ok.mp h
  exact ⟨outers, inners, offsetWire_shrunk hrel h1, (mapE_ok.mp h2).imp (fun _ _ h => offsetWire_shrunk hrel h), mapE_ok.mp h⟩

theorem cqRouteSequences_good {cad : Cad} {j : Job} {stepover : ℚ} (ss : List (List (List Edge))) :
    ∀ {commands cs : List Motion} {pos : AddrVec}, cqRouteSequences cad j stepover commands pos ss = .ok cs →
    (∀ w ∈ ss.flatten, WireOK w ∧ SearchRight cad.search w ∧ ∀ v h, cad.search v w = some h → GoodEntry cad.veq (some stepover) w h) →
    pos = finalPos {} commands →
    ∃ blocks : List (List Motion), cs = commands ++ blocks.flatten ∧
      List.Forall₂ (fun w b => WholeWire cad.veq j.feed (some stepover) w b ∨ SplitWire cad.veq j.feed (some stepover) w b)
        ss.flatten blocks ∧
      ((∀ w ∈ ss.flatten, Chained w ∧ Closes w ∧ ∀ e ∈ w, (e.travel 0).z ≤ j.opSafeHeight) → Connected pos blocks.flatten) := by
  induction ss with
  | nil =>
    intro commands cs pos h _ _
    cases h
    exact ⟨[], by simp, .nil, fun _ => trivial⟩
  | cons s ss ih =>
    intro commands cs pos h hg hp
    unfold cqRouteSequences at h
    obtain ⟨a, ha, h⟩ := bind_ok.mp h
    have hs : ∀ w ∈ s, w ∈ (s :: ss).flatten := fun w hw => by simp [hw]
    obtain ⟨bs, h1, h2, h3⟩ := routeWires_good (veq := cad.veq) (search := cad.search) (j := j) (stepover := some stepover)
      (fun w hw => (hg w (hs w hw)).1) (fun w hw => (hg w (hs w hw)).2.1) (fun w hw => (hg w (hs w hw)).2.2) [] none pos (by simp)
    unfold routeWires at ha
    rw [Option.getD_some, h1, List.nil_append] at ha
    cases ha
    split at h
    · cases h
    · rename_i c hl
      obtain ⟨bs', g1, g2, g3⟩ := ih h (fun w hw => hg w (by
        rw [List.flatten_cons, List.mem_append]; exact .inr hw)) (by
          rw [← lastFin_eq]; simp only [lastFin, hl])
      refine ⟨bs ++ bs', ?_, ?_, ?_⟩
      · rw [g1, List.flatten_append, List.append_assoc]
      · rw [List.flatten_cons]
        exact List.rel_append h2 g2
      · intro hall
        rw [List.flatten_append, connected_append]
        refine ⟨h3 (fun w hw => ⟨(hall w (hs w hw)).1, fun _ => (hall w (hs w hw)).2.1, (hall w (hs w hw)).2.2⟩), ?_⟩
        have hfin : finalPos pos bs.flatten = c.fin := by
          rw [hp, ← finalPos_append, ← lastFin_eq]
          simp only [lastFin, hl]
        rw [hfin]
        exact g3 (fun w hw => hall w (by rw [List.flatten_cons, List.mem_append]; exact .inr hw))

/-- C85 (as far as it holds, see the violations of C83 and C30).  A successful pocket made with the CAD kernel offsets the
areas and the avoid areas, builds the regions from them (C83) and cuts all contours of all regions (C84) in some order: if
the nearest-point search only gives good entries to them, the moves are, for each contour, an approach or a link not longer
than the stepover and moves along all its edges, and nothing else; and if the edges of each contour follow each other, close
up and start below the safe height, every move starts where the previous one ended. -/
theorem C85_cut_partial {F : Type} {k : FaceKernelCq F} (hrel : ∀ v w, k.cad.relocate v w = w) {fuel : ℕ} {j : Job}
    {opAreas avoidAreas : List F} {oo io ao ai stepover : ℚ} {cs : List Motion}
    (h : pocketCq k fuel j opAreas avoidAreas oo io ao ai stepover = .ok cs) :
    ∃ (areas avoids : List (List F)) (regions : List F) (contours : List (List (List Edge))),
      List.Forall₂ (OffsetFaceTo k oo io) opAreas areas ∧ List.Forall₂ (OffsetFaceTo k ao ai) avoidAreas avoids ∧
      cqBuildPocketOps k j.top.zDir areas.flatten avoids.flatten = .ok regions ∧
      List.Forall₂ (ContoursOf k stepover) regions contours ∧
      ((∀ w ∈ contours.flatten, WireOK w ∧ SearchRight k.cad.search w ∧
          ∀ v h, k.cad.search v w = some h → GoodEntry k.cad.veq (some stepover) w h) →
        ∃ (order : List (List Edge)) (blocks : List (List Motion)), order.Perm contours.flatten ∧ cs = blocks.flatten ∧
          List.Forall₂ (fun w b => WholeWire k.cad.veq j.feed (some stepover) w b ∨
            SplitWire k.cad.veq j.feed (some stepover) w b) order blocks ∧
          ((∀ w ∈ contours.flatten, Chained w ∧ Closes w ∧ ∀ e ∈ w, (e.travel 0).z ≤ j.opSafeHeight) → Connected {} cs)) := by
  obtain ⟨areas, h1, h⟩ := bind_ok.mp h
  obtain ⟨avoids, h2, h⟩ := bind_ok.mp h
  obtain ⟨regions, h3, h⟩ := bind_ok.mp h
  obtain ⟨seqss, h4, h⟩ := bind_ok.mp h
  have h5 := mapE_ok.mp h4
  obtain ⟨contours, h6, h7⟩ : ∃ contours, List.Forall₂ (ContoursOf k stepover) regions contours ∧
      seqss.flatten.flatten.Perm contours.flatten := by
    clear h h4 h3 h2 h1
    revert h5
    intro h5
    clear * - h5 hrel
    induction h5 with
    | nil => exact ⟨[], .nil, List.Perm.refl _⟩
    | cons hp _ ih =>
      obtain ⟨contours, g1, g2⟩ := ih
      obtain ⟨holes, ys, e1, e2, e3, -⟩ := C84_complete hrel hp
      refine ⟨ys :: contours, .cons ⟨holes, e1, e2⟩ g1, ?_⟩
      rw [List.flatten_cons, List.flatten_append, List.flatten_cons]
      exact e3.append g2
  refine ⟨areas, avoids, regions, contours, (mapE_ok.mp h1).imp (fun _ _ h => offsetFace_to hrel h),
    (mapE_ok.mp h2).imp (fun _ _ h => offsetFace_to hrel h), h3, h6, ?_⟩
  intro hg
  obtain ⟨blocks, g1, g2, g3⟩ := cqRouteSequences_good seqss.flatten h (fun w hw => hg w (h7.mem_iff.mp hw)) rfl
  rw [List.nil_append] at g1
  exact ⟨_, blocks, h7, g1, g2, fun hall => g1 ▸ g3 (fun w hw => hall w (h7.mem_iff.mp hw))⟩

theorem tame_cqRouteSequences {cad : Cad} {j : Job} {stepover : ℚ} (ss : List (List (List Edge))) :
    ∀ {commands cs : List Motion} {pos : AddrVec}, cqRouteSequences cad j stepover commands pos ss = .ok cs →
    Tame j.rapidHeight j.opSafeHeight {} commands → pos = finalPos {} commands → Tame j.rapidHeight j.opSafeHeight {} cs := by
  induction ss with
  | nil => intro commands cs pos h hc _; cases h; exact hc
  | cons s ss ih =>
    intro commands cs pos h hc hp
    unfold cqRouteSequences at h
    obtain ⟨a, ha, h⟩ := bind_ok.mp h
    split at h
    · cases h
    · rename_i c hl
      refine ih h ?_ ?_
      · rw [tame_append, ← hp]
        exact ⟨hc, tame_routeWiresFrom s ha trivial rfl⟩
      · rw [← lastFin_eq]
        simp only [lastFin, hl]

/-- C85, rapids.  With either engine, every rapid of a pocket ends at the rapid height, at the safe height or at the job
plane, and moves sideways only at the rapid height or at the safe height. -/
theorem C85_rapids {F : Type} {eng : Clipper} {k : FaceKernelCq F} {view : F → CqFace} {fuel : ℕ} {opAreas avoidAreas : List F}
    {a : PocketArgs} {engine : Text} {j : Job} {cs : List Motion}
    (h : pocketWith eng k view fuel opAreas avoidAreas a engine j = .ok cs) :
    ∀ c ∈ cs, c.kind.mot = .rapid →
      (c.fin.z = some j.rapidHeight ∨ c.fin.z = some j.opSafeHeight ∨ c.fin.z = some 0) ∧
      (Lateral c → c.start.z = c.fin.z ∧ (c.fin.z = some j.rapidHeight ∨ c.fin.z = some j.opSafeHeight)) := by
  have ht : Tame j.rapidHeight j.opSafeHeight {} cs := by
    unfold pocketWith at h
    cases hr : j.toolRadius with
    | none => rw [hr] at h; cases h
    | some r =>
      rw [hr] at h
      simp only at h
      split at h
      · exact tame_pocket h
      · split at h
        · obtain ⟨_, -, h⟩ := bind_ok.mp h
          obtain ⟨_, -, h⟩ := bind_ok.mp h
          obtain ⟨_, -, h⟩ := bind_ok.mp h
          obtain ⟨seqs, -, h⟩ := bind_ok.mp h
          exact tame_cqRouteSequences _ h trivial rfl
        · cases h
  exact fun c hc hk => tame_mem ht c hc hk

/-- C85, choice of the engine.  With a tool, "clipper" is the pocket of C45 and C74, and "cq" the one of `C85_cut_partial` with the
offsets and the stepover in tool radii (the default outer offset is 0 if there are avoid areas, else one radius to the
inside); any other name is refused. -/
theorem C85_engine {F : Type} (eng : Clipper) (k : FaceKernelCq F) (view : F → CqFace) (fuel : ℕ) (opAreas avoidAreas : List F)
    (a : PocketArgs) (engine : Text) (j : Job) (r : ℚ) (hr : j.toolRadius = some r) :
    (engine = "clipper".toList → pocketWith eng k view fuel opAreas avoidAreas a engine j =
      pocket eng k.cad.veq fuel (opAreas.map view) (avoidAreas.map view) a j) ∧
    (engine = "cq".toList → a = {} → pocketWith eng k view fuel opAreas avoidAreas a engine j =
      pocketCq k fuel j opAreas avoidAreas (if avoidAreas = [] then -r else 0) r r (-r) (r / 2)) ∧
    (engine ≠ "clipper".toList → engine ≠ "cq".toList →
      pocketWith eng k view fuel opAreas avoidAreas a engine j = .error .valueError) := by
  unfold pocketWith
  rw [hr]
  simp only
  refine ⟨fun h => by rw [if_pos h], ?_, fun h1 h2 => by rw [if_neg h1, if_neg h2]⟩
  rintro h rfl
  rw [if_neg (by rw [h]; decide), if_pos h]
  congr 1
  · by_cases ha : avoidAreas = [] <;> simp [ha, calculateOffset]
  all_goals simp [calculateOffset]
  ring

/-- Without a tool diameter there is no pocket. -/
theorem C85_no_tool {F : Type} (eng : Clipper) (k : FaceKernelCq F) (view : F → CqFace) (fuel : ℕ) (opAreas avoidAreas : List F)
    (a : PocketArgs) (engine : Text) (j : Job) (hr : j.toolRadius = none) :
    pocketWith eng k view fuel opAreas avoidAreas a engine j = .error .typeError := by
  unfold pocketWith
  rw [hr]

/-- The two squares: the call succeeds, and the contours of its only region meet the conditions of `C85_cut_partial`. -/
example : (∀ v w, wireKernel.cad.relocate v w = w) ∧
    (match pocketCq wireKernel 4 demoInit [outerSquare] [] 0 0 0 0 1 with | .ok cs => decide (8 < cs.length) | .error _ => false) = true ∧
    (∃ regions, cqBuildPocketOps wireKernel ⟨0, 0, 1⟩ [outerSquare] [] = .ok regions ∧ regions = [outerSquare]) ∧
    ContoursOf wireKernel 1 outerSquare [outerSquare, innerSquare] ∧
    ∀ w ∈ [outerSquare, innerSquare], (WireOK w ∧ SearchRight wireKernel.cad.search w ∧
      ∀ v h, wireKernel.cad.search v w = some h → GoodEntry wireKernel.cad.veq (some 1) w h) ∧
      Chained w ∧ Closes w ∧ ∀ e ∈ w, (e.travel 0).z ≤ demoInit.opSafeHeight := by
  refine ⟨fun _ _ => rfl, by decide +kernel, ⟨_, rfl, ?_⟩, ⟨[], .nil, ?_⟩, ?_⟩
  · rfl
  · have hs : ∀ w : List Edge, ∀ cs, wireKernel.cad.offset2D w (-1) = .ok cs → FollowsCq wireKernel [] 1 w cs := by
      intro w cs h
      exact ⟨cs, .inl ⟨cs, .inl h, List.Sublist.refl _, fun c hc => ⟨fun _ => ⟨1, rfl, by norm_num⟩, fun _ => hc⟩⟩, by rw [if_pos rfl]⟩
    have h1 : FollowsCq wireKernel [] 1 outerSquare [innerSquare] := hs _ _ (by simp [wireKernel, outerSquare, outline, lineEdge])
    have h2 : FollowsCq wireKernel [] 1 innerSquare [] := hs _ _ (by simp [wireKernel, innerSquare, outline, lineEdge])
    exact .cons h1 (.cons h2 .nil .nil) .nil
  · intro w hw
    obtain ⟨a, b, c, d, e, f⟩ := squares_ok.1 w (by simp at hw ⊢; tauto)
    exact ⟨⟨a, b, c⟩, d, e, f⟩

/-- With this engine the stepdown is ignored: whatever is asked for, the moves are the same; the kernel above makes a pocket
of depth 1 in one pass although passes of 1/4 were asked for. -/
theorem C85_violated_stepdown :
    (∀ (F : Type) (eng : Clipper) (k : FaceKernelCq F) (view : F → CqFace) (fuel : ℕ) (opAreas avoidAreas : List F)
      (a : PocketArgs) (s : Option ℚ) (j : Job), pocketWith eng k view fuel opAreas avoidAreas { a with stepdown := s } "cq".toList j =
        pocketWith eng k view fuel opAreas avoidAreas a "cq".toList j) ∧
    ∃ cs, pocketWith squareEngine wireKernel (fun _ => ⟨[], [], -1, -1⟩) 4 [outerSquare] []
        { outerOffset := some (.mult 0), stepover := some (.mult 1), stepdown := some (1 / 4) } "cq".toList
        { demoInit with toolDiameter := some 2 } = .ok cs ∧
      (∃ c ∈ cs, c.fin.z = some (-1)) ∧ ¬ ∃ c ∈ cs, c.fin.z = some (-1 / 4) := by
  refine ⟨fun _ _ _ _ _ _ _ _ _ _ => rfl, ?_⟩
  have key : (match pocketWith squareEngine wireKernel (fun _ => ⟨[], [], -1, -1⟩) 4 [outerSquare] []
        { outerOffset := some (.mult 0), stepover := some (.mult 1), stepdown := some (1 / 4) } "cq".toList
        { demoInit with toolDiameter := some 2 } with
      | .ok cs => decide ((∃ c ∈ cs, c.fin.z = some (-1)) ∧ ¬ ∃ c ∈ cs, c.fin.z = some (-1 / 4))
      | .error _ => false) = true := by decide +kernel
  split at key
  · rename_i cs h
    exact ⟨cs, h, by simpa using key⟩
  · cases key

end CQ
