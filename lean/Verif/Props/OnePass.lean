import Verif.Spec.OnePass
import Verif.Props.PocketPath
import Verif.Props.PocketPasses
import Verif.Props.Profile
import Verif.Props.Surface
import Verif.Props.ShiftExample
import Verif.Proofs.Segments

/-! # C125: a stepdown as large as the depth is the same as none -/

namespace CQ

/-! ### Chains -/

theorem call_gen_congr {j : Job} {r r' : Request} (hn : r.opName = r'.opName) (ht : r.tool = r'.tool) (hp : r.pre j = r'.pre j)
    (hg : r.gen (j.updateTool r.tool).2 = r'.gen (j.updateTool r.tool).2) : j.call r = j.call r' := by
  unfold Job.call
  rw [hp, ← ht, hn]
  cases r'.pre j with
  | error e => rfl
  | ok _ => simp only [hg]

theorem chain_swap {j0 : Job} {r r' : Request} (before after : List Request)
    (h : ∀ j1, j0.chain before = .ok j1 → j1.call r = j1.call r') :
    j0.chain (before ++ r :: after) = j0.chain (before ++ r' :: after) := by
  induction before generalizing j0 with
  | nil =>
    simp only [List.nil_append, Job.chain, h j0 rfl]
  | cons b bs ih =>
    simp only [List.cons_append, Job.chain] at h ⊢
    cases hc : (j0.call b).2 with
    | error e => rfl
    | ok j1 =>
      rw [hc] at h
      exact ih h

theorem updateTool_top (j : Job) (t : Option Tool) : (j.updateTool t).2.top = j.top := by
  cases t with
  | none => rfl
  | some t =>
    simp only [Job.updateTool]
    split_ifs <;> rfl

theorem chain_top {rs : List Request} : ∀ {j j' : Job}, j.chain rs = .ok j' → j'.top = j.top := by
  induction rs with
  | nil => intro j j' h; cases h; rfl
  | cons r rs ih =>
    intro j j' h
    obtain ⟨j1, h1, h2⟩ := chain_cons_ok h
    rw [ih h2]
    unfold Job.call at h1
    split at h1
    · cases h1
    · simp only at h1
      split at h1
      · cases h1
      · cases h1
        exact updateTool_top j r.tool

/-! ### Pockets -/

theorem arange_empty {start stop s : ℚ} (hs : 0 < s) (h : start - s ≤ stop) : arange (start - s) stop (-s) = [] := by
  unfold arange
  have : ⌈(stop - (start - s)) / -s⌉ ≤ 0 := by
    rw [Int.ceil_le]
    push_cast
    apply div_nonpos_of_nonneg_of_nonpos <;> linarith
  rw [Int.toNat_of_nonpos this]
  rfl

theorem opSequences_onePass {eng : Clipper} {fuel : ℕ} {stepover s : ℚ} {precision : ℕ} {shallower : List PathFace} {op : PathFace}
    (hs : 0 < s) (hd : -s ≤ op.depth) (h0 : ∀ o ∈ shallower, o.depth ≤ 0) :
    opSequences eng fuel stepover (some s) precision shallower op = opSequences eng fuel stepover none precision shallower op := by
  unfold opSequences
  cases hf : fillPocket eng fuel op stepover precision with
  | error e => rfl
  | ok fill =>
    simp only [ok_bind, if_neg hs.ne']
    have hst : (determineStepdownStartDepth eng op shallower).getD 0 ≤ 0 := by
      unfold determineStepdownStartDepth
      cases hh : (((shallower.filter (fun o => eng.contains o op)).map PathFace.depth).insertionSort (· ≤ ·)).head? with
      | none => exact le_refl _
      | some d =>
        have := List.mem_of_mem_head? hh
        rw [List.mem_insertionSort] at this
        obtain ⟨o, ho, rfl⟩ := List.mem_map.mp this
        exact h0 o (List.mem_of_mem_filter ho)
    rw [applyStepdown_fill hf, arange_empty hs (by linarith)]
    rfl

theorem allSequences_onePass {eng : Clipper} {fuel : ℕ} {stepover s : ℚ} {precision : ℕ} (hs : 0 < s) {ops : List PathFace} :
    ∀ {shallower : List PathFace}, (∀ o ∈ ops, -s ≤ o.depth ∧ o.depth ≤ 0) → (∀ o ∈ shallower, o.depth ≤ 0) →
    allSequences eng fuel stepover (some s) precision shallower ops = allSequences eng fuel stepover none precision shallower ops := by
  induction ops with
  | nil => intro _ _ _; rfl
  | cons op ops ih =>
    intro shallower h h0
    simp only [allSequences]
    rw [opSequences_onePass hs (h op (by simp)).1 h0, ih (fun o ho => h o (by simp [ho])) (by
      intro o ho
      rcases List.mem_append.mp ho with ho | ho
      · exact h0 o ho
      · rw [List.mem_singleton] at ho
        rw [ho]
        exact (h op (by simp)).2)]

theorem pocketClipper_onePass {eng : Clipper} {fuel : ℕ} {j : Job} {opAreas avoidAreas : List PathFace} {a b c d stepover s : ℚ}
    (hs : 0 < s) (h : ∀ f ∈ opAreas, -s ≤ f.depth) :
    pocketClipper eng fuel j opAreas avoidAreas a b c d stepover (some s) =
      pocketClipper eng fuel j opAreas avoidAreas a b c d stepover none := by
  unfold pocketClipper
  cases h1 : mapE (fun f => offsetPolyface eng f a b j.precision) opAreas with
  | error e => rfl
  | ok ops =>
    cases h2 : mapE (fun f => offsetPolyface eng f c d j.precision) avoidAreas with
    | error e => rfl
    | ok avoids =>
      simp only [ok_bind]
      cases h3 : buildPocketOps eng ops.flatten avoids.flatten with
      | error e => rfl
      | ok pops =>
        simp only [ok_bind]
        rw [allSequences_onePass hs (ops := pops) (shallower := []) ?_ (by simp)]
        intro o ho
        obtain ⟨dm, ds, am, ad, hds, -, -⟩ := buildPocketOps_ok h3
        obtain ⟨f, hf, hfd⟩ := ops_depth h3 ho
        refine ⟨?_, hfd ▸ hds.below f hf⟩
        obtain ⟨fs, hfs, hf⟩ := List.mem_flatten.mp hf
        obtain ⟨g, hg, hgo⟩ := mapE_mem h1 hfs
        rw [← hfd, offsetPolyface_depth hgo f hf]
        exact h g hg

theorem pocketPlaced_onePass {eng : Clipper} {veq : Vec → Vec → Bool} {box : List Edge → List (List Edge) → ℚ × ℚ} {fuel : ℕ}
    {opAreas avoidAreas : List WorldFace} {a : PocketArgs} {j : Job} {s : ℚ} (hs : 0 < s) (h : FacesWithin box j.top s opAreas) :
    pocketPlaced eng veq box fuel opAreas avoidAreas { a with stepdown := some s } j =
      pocketPlaced eng veq box fuel opAreas avoidAreas { a with stepdown := none } j := by
  unfold pocketPlaced pocket
  cases j.toolRadius with
  | none => rfl
  | some r =>
    simp only
    cases h1 : mapE (fun f => PathFace.fromCqFace veq f j.precision) (opAreas.map (WorldFace.toJob box j.top)) with
    | error e => rfl
    | ok ops =>
      cases h2 : mapE (fun f => PathFace.fromCqFace veq f j.precision) (avoidAreas.map (WorldFace.toJob box j.top)) with
      | error e => rfl
      | ok avoids =>
        simp only [ok_bind]
        rw [pocketClipper_onePass hs]
        intro f hf
        obtain ⟨g, hg, hgf⟩ := mapE_mem h1 hf
        obtain ⟨w, hw, rfl⟩ := List.mem_map.mp hg
        unfold PathFace.fromCqFace at hgf
        split_ifs at hgf
        obtain ⟨o, -, hgf⟩ := bind_ok.mp hgf
        obtain ⟨is, -, hgf⟩ := bind_ok.mp hgf
        cases hgf
        exact h w hw

/-- C125, for pockets: when no face is deeper than the stepdown, the whole program is the one without a stepdown. -/
theorem C125_pocket_partial {eng : Clipper} {veq : Vec → Vec → Bool} {box : List Edge → List (List Edge) → ℚ × ℚ} {fuel : ℕ}
    {opAreas avoidAreas : List WorldFace} {a : PocketArgs} {tool : Option Tool} {j0 : Job} {s : ℚ} (hs : 0 < s)
    (h : FacesWithin box j0.top s opAreas) (before after : List Request) :
    j0.chain (before ++ pocketPlacedRequest eng veq box fuel opAreas avoidAreas { a with stepdown := some s } tool :: after) =
      j0.chain (before ++ pocketPlacedRequest eng veq box fuel opAreas avoidAreas { a with stepdown := none } tool :: after) := by
  apply chain_swap
  intro j1 h1
  refine call_gen_congr rfl rfl rfl (pocketPlaced_onePass hs ?_)
  rw [updateTool_top, chain_top h1]
  exact h

/-! ### Profiles -/

theorem profileFeature_onePass {cad : Cad} (hb : BoxMoves cad) {top : Frame} {s : ℚ} (hs : 0 < s) {tabs : Option Tabs} {b : List Edge}
    (hne : b ≠ []) (h : -s - 1 / 1000 ≤ cad.zmin b) :
    profileFeature cad top (some s) tabs b = profileFeature cad top none tabs b := by
  have : profileLayers cad top b (some s) = profileLayers cad top b none := by
    have h1 : stepLayers cad top b s 101 0 = .ok [] := by
      rw [stepLayers]
      rw [hb _ _ _ hne (raised_up _ b), if_pos (by push_cast; linarith)]
    simp only [profileLayers]
    rw [if_neg hs.ne', h1]
    rfl
  unfold profileFeature
  rw [this]

theorem mapE_congr_mem {α β : Type} {f g : α → Except Err β} {l : List α} (h : ∀ a ∈ l, f a = g a) : mapE f l = mapE g l := by
  induction l with
  | nil => rfl
  | cons a l ih => simp only [mapE, h a (by simp), ih (fun b hb => h b (by simp [hb]))]

theorem profile_onePass {cad : Cad} (hb : BoxMoves cad) {j : Job} {wire : List Edge} {offset s : ℚ} (hs : 0 < s) {tabs : Option Tabs}
    (h : ContoursWithin cad j offset s wire) : profile cad j wire offset (some s) tabs = profile cad j wire offset none tabs := by
  have : profileWires cad j wire offset (some s) tabs = profileWires cad j wire offset none tabs := by
    unfold profileWires
    cases hr : j.toolRadius with
    | none => rfl
    | some r =>
      simp only
      cases ho : offsetWire cad (wire.map (Edge.toLocal j.top)) (offset * r) with
      | error e => rfl
      | ok bases =>
        simp only [ok_bind]
        rw [mapE_congr_mem (fun b hm => profileFeature_onePass hb hs (h r bases hr ho b hm).1 (h r bases hr ho b hm).2)]
  unfold profile
  rw [this]

theorem profiles_onePass {cad : Cad} (hb : BoxMoves cad) {j : Job} {wires : List (List Edge)} {offset s : ℚ} (hs : 0 < s)
    {tabs : Option Tabs} (h : ∀ w ∈ wires, ContoursWithin cad j offset s w) :
    profiles cad j offset (some s) tabs wires = profiles cad j offset none tabs wires := by
  unfold profiles
  rw [mapE_congr_mem (fun w hw => profile_onePass hb hs (h w hw))]

/-- C125, for wire profiles, with and without tabs. -/
theorem C125_wire_profile_partial {cad : Cad} (hb : BoxMoves cad) {wires : List (List Edge)} {offset s : ℚ} (hs : 0 < s) {tabs : Option Tabs}
    {tool : Option Tool} {j0 : Job} (before after : List Request)
    (h : ∀ j1, j0.chain before = .ok j1 → ∀ w ∈ wires, ContoursWithin cad (j1.updateTool tool).2 offset s w) :
    j0.chain (before ++ wireProfileRequest cad wires offset (some s) tabs tool :: after) =
      j0.chain (before ++ wireProfileRequest cad wires offset none tabs tool :: after) := by
  apply chain_swap
  intro j1 h1
  exact call_gen_congr rfl rfl rfl (profiles_onePass hb hs (h j1 h1))

/-- C125, for profiles, with and without tabs. -/
theorem C125_profile_partial {cad : Cad} (hb : BoxMoves cad) {shapes : List Shape} {oo io : Option ℚ} {s : ℚ} (hs : 0 < s) {tabs : Option Tabs}
    {tool : Option Tool} {j0 : Job} (before after : List Request)
    (h : ∀ j1 os is, j0.chain before = .ok j1 → extractWires shapes = .ok (os, is) →
      (∀ o, oo = some o → ∀ w ∈ os, ContoursWithin cad (j1.updateTool tool).2 o s w) ∧
      ∀ o, io = some o → ∀ w ∈ is, ContoursWithin cad (j1.updateTool tool).2 o s w) :
    j0.chain (before ++ profileRequest cad shapes oo io (some s) tabs tool :: after) =
      j0.chain (before ++ profileRequest cad shapes oo io none tabs tool :: after) := by
  apply chain_swap
  intro j1 h1
  refine call_gen_congr rfl rfl rfl ?_
  simp only [profileRequest]
  cases he : extractWires shapes with
  | error e => rfl
  | ok x =>
    obtain ⟨os, is⟩ := x
    obtain ⟨h2, h3⟩ := h j1 os is h1 he
    have key : ∀ (o : Option ℚ) (ws : List (List Edge)), (∀ v, o = some v → ∀ w ∈ ws, ContoursWithin cad (j1.updateTool tool).2 v s w) →
        profilesOpt cad (j1.updateTool tool).2 o (some s) tabs ws = profilesOpt cad (j1.updateTool tool).2 o none tabs ws := by
      intro o ws hw
      cases o with
      | none => rfl
      | some v => exact profiles_onePass hb hs (hw v rfl)
    simp only [ok_bind, key _ _ h2, key _ _ h3]

/-! ### 3D surfacing -/

/-- C125 fails for 3D surfacing: with a stepdown as large as the depth, given as a positive or as a negative number, every surfacing
that is possible without stepdown is refused. -/
theorem C125_violated_surface {eng : SurfaceEngine} {args : SurfaceArgs} {j : Job} {polygon : List Pt} {s : ℚ} {cs : List Motion}
    (hs : 0 < s) (hd : args.topHeight - eng.bottom ≤ s) (h0 : eng.bottom ≤ args.topHeight)
    (h : surfaceBoundary eng { args with stepdown := none } j polygon = .ok cs) :
    surfaceBoundary eng { args with stepdown := some s } j polygon = .error .indexError ∧
      surfaceBoundary eng { args with stepdown := some (-s) } j polygon = .error .indexError := by
  unfold surfaceBoundary at h ⊢
  obtain ⟨paths, h1, h⟩ := bind_ok.mp h
  obtain ⟨seqs, h2, h⟩ := bind_ok.mp h
  obtain ⟨merged, h3, h⟩ := bind_ok.mp h
  simp only at h1 h2 h3 ⊢
  simp only [h1, ok_bind, h2, h3, (C59_violated args.topHeight eng.bottom s hs).1 (by linarith),
    (C59_violated args.topHeight eng.bottom s hs).2 (by linarith), error_bind, and_self]

/-! ### Instances -/

/-- The square pocket at depth 6 with stepdowns of 6 and more is the one without stepdown; with a stepdown of 2 it is not. -/
example : FacesWithin levelBox placedJob.top 6 [⟨placedSquare, []⟩] ∧
    (match placedJob.chain [pocketPlacedRequest boxEngine exactEq levelBox 50 [⟨placedSquare, []⟩] [] { stepdown := some 6 } none],
      placedJob.chain [pocketPlacedRequest boxEngine exactEq levelBox 50 [⟨placedSquare, []⟩] [] {} none],
      placedJob.chain [pocketPlacedRequest boxEngine exactEq levelBox 50 [⟨placedSquare, []⟩] [] { stepdown := some 2 } none] with
    | .ok j, .ok j', .ok j'' => decide (j.operations = j'.operations ∧ j'.operations ≠ j''.operations ∧
        j'.operations.map (fun o => o.commands.length) < j''.operations.map (fun o => o.commands.length))
    | _, _, _ => false) = true := by
  constructor
  · intro f hf
    rw [List.mem_singleton] at hf
    subst hf
    decide +kernel
  · decide +kernel

/-- The contour around that square. -/
example : ContoursWithin flatCad placedJob 1 6 placedSquare := by
  intro r bases hr ho b hb
  have h : (match offsetWire flatCad (placedSquare.map (Edge.toLocal placedJob.top)) (1 * 1) with
      | .ok bs => bs.all (fun b => decide (b.length ≠ 0 ∧ -6 - 1 / 1000 ≤ flatCad.zmin b)) && decide (bs.length = 1)
      | .error _ => false) = true := by decide +kernel
  have : r = 1 := by
    have : placedJob.toolRadius = some 1 := by decide +kernel
    rw [this] at hr
    cases hr
    rfl
  subst this
  rw [ho] at h
  have h := List.all_eq_true.mp (Bool.and_eq_true _ _ ▸ h).1 b hb
  have h := of_decide_eq_true h
  exact ⟨by rintro rfl; exact h.1 rfl, h.2⟩

example : (match placedJob.chain [profileRequest flatCad [.wire placedSquare] (some 1) none (some 6) none none],
      placedJob.chain [profileRequest flatCad [.wire placedSquare] (some 1) none none none none],
      placedJob.chain [profileRequest flatCad [.wire placedSquare] (some 1) none (some 2) none none] with
    | .ok j, .ok j', .ok j'' => decide (j.operations = j'.operations ∧ j'.operations ≠ j''.operations)
    | _, _, _ => false) = true := by decide +kernel

/-- The surfacing of the hill, and one that is refused. -/
example : hillArgs.topHeight - hillEngine.bottom ≤ 10 ∧ hillEngine.bottom ≤ hillArgs.topHeight ∧
    (match surfaceBoundary hillEngine { hillArgs with stepdown := none } demoInit [⟨0, 0⟩, ⟨10, 0⟩, ⟨10, 4⟩, ⟨2, 4⟩, ⟨0, 0⟩] with
    | .ok cs => decide (0 < cs.length)
    | .error _ => false) = true := by decide +kernel

end CQ
