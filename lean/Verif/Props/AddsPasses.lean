import Verif.Spec.AddsPasses
import Verif.Props.Heights

/-! # C127: stepdown only adds passes -/

namespace CQ

theorem SameCut.symm {c c' : Motion} (h : SameCut c c') : SameCut c' c :=
  ⟨h.kind.symm, h.fin.symm, h.center.symm, h.mid.symm, h.feed.symm, h.startX.symm, h.startY.symm, fun hk => (h.startZ (h.kind ▸ hk)).symm⟩

theorem SameCuts.symm {cs cs' : List Motion} (h : SameCuts cs cs') : SameCuts cs' cs := List.Forall₂.flip (h.imp fun _ _ hc => hc.symm)

theorem MoreCuts.append {a a' b b' : List Motion} (h : MoreCuts a a') (k : MoreCuts b b') : MoreCuts (a ++ b) (a' ++ b') := by
  unfold MoreCuts at *
  rw [List.filter_append, List.filter_append]
  obtain ⟨l, h1, h2⟩ := List.sublistForall₂_iff.mp h
  obtain ⟨m, k1, k2⟩ := List.sublistForall₂_iff.mp k
  exact List.sublistForall₂_iff.mpr ⟨l ++ m, List.rel_append h1 k1, h2.append k2⟩

theorem MoreCuts.of {a a' : List Motion} (h : SameCuts a a') : MoreCuts a a' := List.sublistForall₂_iff.mpr ⟨_, h, List.Sublist.refl _⟩

theorem MoreCuts.skip {a a' : List Motion} (h : MoreCuts a a') (b : List Motion) : MoreCuts a (a' ++ b) := by
  have := h.append (b := []) (b' := b) .nil
  rwa [List.append_nil] at this

theorem MoreCuts.flatten {a a' : List (List Motion)} (h : List.Forall₂ MoreCuts a a') : MoreCuts a.flatten a'.flatten := by
  induction h with
  | nil => exact .nil
  | cons h _ ih => exact h.append ih

theorem mapE_sublist {α β : Type} {f : α → Except Err β} {l0 l : List α} (h : l0.Sublist l) :
    ∀ {r : List β}, mapE f l = .ok r → ∃ r0, mapE f l0 = .ok r0 ∧ r0.Sublist r := by
  induction h with
  | slnil => intro r hr; exact ⟨r, hr, List.Sublist.refl _⟩
  | cons a _ ih =>
    intro r hr
    simp only [mapE] at hr
    obtain ⟨b, h1, hr⟩ := bind_ok.mp hr
    obtain ⟨bs, h2, hr⟩ := bind_ok.mp hr
    cases hr
    obtain ⟨r0, h3, h4⟩ := ih h2
    exact ⟨r0, h3, h4.cons b⟩
  | cons_cons a _ ih =>
    intro r hr
    simp only [mapE] at hr
    obtain ⟨b, h1, hr⟩ := bind_ok.mp hr
    obtain ⟨bs, h2, hr⟩ := bind_ok.mp hr
    cases hr
    obtain ⟨r0, h3, h4⟩ := ih h2
    refine ⟨b :: r0, ?_, h4.cons_cons b⟩
    simp only [mapE, h1, ok_bind, h3]

/-! ### Pockets -/

theorem routeSequences_more {j : Job} {old : List Operation} {stepover : ℚ} {ss0 ss : List (List PathFace)} (hsub : ss0.Sublist ss) :
    ∀ {cs0 cs r : List Motion} {pos0 pos : AddrVec}, MoreCuts cs0 cs →
    (∀ s ∈ ss, s ≠ []) → (∀ f ∈ ss.flatten, f.depth < j.opSafeHeight) → routeSequences j stepover cs pos ss = .ok r →
    ∃ r0, routeSequences { j with operations := old } stepover cs0 pos0 ss0 = .ok r0 ∧ MoreCuts r0 r := by
  induction hsub with
  | slnil =>
    intro cs0 cs r pos0 pos h _ _ hr
    cases hr
    exact ⟨cs0, rfl, h⟩
  | @cons l1 l2 s _ ih =>
    intro cs0 cs r pos0 pos h hne hf hr
    simp only [routeSequences] at hr
    obtain ⟨a, ha, hr⟩ := bind_ok.mp hr
    split at hr
    · cases hr
    · exact ih (h.skip a) (fun s hs => hne s (by simp [hs])) (fun f hm => hf f (by
        simp only [List.flatten_cons, List.mem_append]; exact .inr hm)) hr
  | @cons_cons l1 l2 s _ ih =>
    intro cs0 cs r pos0 pos h hne hf hr
    simp only [routeSequences] at hr ⊢
    obtain ⟨a, ha, hr⟩ := bind_ok.mp hr
    have h1 := routeFaces_heights (j := j) (old := old) (R := j.rapidHeight) (S := j.opSafeHeight) (so := some stepover) (fs := s) (pwe := none)
      (pos := pos) (pos' := pos0) (fun h => (h rfl).elim) (fun f hm => ⟨hf f (by simp [hm]), hf f (by simp [hm])⟩)
    obtain ⟨b, hb, hab, hfin⟩ := h1.ok_left ha
    have hb' : routePolyfaceOuters { j with operations := old } s (some stepover) (some pos0) = .ok b := hb
    obtain ⟨c, c', hl, hl', -⟩ := getLast_alike (hfin (hne s (by simp)))
    simp only [List.getLast?_append, hl, Option.some_or] at hr
    rw [hb']
    simp only [ok_bind, List.getLast?_append, hl', Option.some_or]
    exact ih (h.append (MoreCuts.of hab.symm)) (fun s hs => hne s (by simp [hs])) (fun f hm => hf f (by
      simp only [List.flatten_cons, List.mem_append]; exact .inr hm)) hr

theorem allSequences_more {eng : Clipper} {fuel : ℕ} {stepover s : ℚ} {precision : ℕ} {ops : List PathFace} :
    ∀ {done : List PathFace} {seqs : List (List PathFace)}, allSequences eng fuel stepover (some s) precision done ops = .ok seqs →
    ∃ seqs0, allSequences eng fuel stepover none precision done ops = .ok seqs0 ∧ seqs0.Sublist seqs := by
  induction ops with
  | nil => intro done seqs h; cases h; exact ⟨[], rfl, List.Sublist.refl _⟩
  | cons op ops ih =>
    intro done seqs h
    rw [allSequences] at h
    obtain ⟨a, h1, h⟩ := bind_ok.mp h
    obtain ⟨rest, h2, h⟩ := bind_ok.mp h
    cases h
    obtain ⟨rest0, h3, h4⟩ := ih h2
    unfold opSequences at h1
    obtain ⟨fill, h5, h1⟩ := bind_ok.mp h1
    have hsub : fill.Sublist a := by
      simp only at h1
      split at h1
      · cases h1; exact List.Sublist.refl _
      · obtain ⟨st, -, h1⟩ := bind_ok.mp h1
        cases h1
        exact List.sublist_append_right _ _
    refine ⟨fill ++ rest0, ?_, hsub.append h4⟩
    rw [allSequences]
    simp only [opSequences, h5, ok_bind, h3]

theorem FreeOfHeights.adds {top : Frame} {S : ℚ} {r : Request} (h : FreeOfHeights top S S r) : AddsOnly top S r r where
  tool := rfl
  pre := fun j old hs hp => by
    subst hs
    exact (h.pre j j.rapidHeight old).trans hp
  gen := fun j old cs' ht hs hg => by
    obtain ⟨cs, h1, h2⟩ := (h.gen j j.rapidHeight old ht hs).ok_left hg
    refine ⟨cs, ?_, MoreCuts.of h2.symm⟩
    rw [← h1]
    subst hs
    rfl

/-- C127, for pockets. -/
theorem C127_pocket_partial (eng : Clipper) (veq : Vec → Vec → Bool) (box : List Edge → List (List Edge) → ℚ × ℚ) (fuel : ℕ)
    (opAreas avoidAreas : List WorldFace) (a : PocketArgs) (tool : Option Tool) (top : Frame) {S : ℚ} (hS : 0 < S) :
    AddsOnly top S (pocketPlacedRequest eng veq box fuel opAreas avoidAreas { a with stepdown := none } tool)
      (pocketPlacedRequest eng veq box fuel opAreas avoidAreas a tool) := by
  cases hsd : a.stepdown with
  | none =>
    have : { a with stepdown := none } = a := by cases a; cases hsd; rfl
    rw [this]
    exact (C126_pocket_partial eng veq box fuel opAreas avoidAreas a tool top hS hS).adds
  | some s =>
    refine ⟨rfl, fun _ _ _ h => h, fun j old cs' ht hs hg => ?_⟩
    simp only [pocketPlacedRequest, pocketPlaced, pocket] at hg ⊢
    have hr : Job.toolRadius { j with operations := old } = j.toolRadius := rfl
    rw [hr]
    cases hj : j.toolRadius with
    | none => rw [hj] at hg; cases hg
    | some r =>
      rw [hj] at hg
      obtain ⟨ops, h1, hg⟩ := bind_ok.mp hg
      obtain ⟨avoids, h2, hg⟩ := bind_ok.mp hg
      simp only [h1, h2, ok_bind]
      unfold pocketClipper at hg ⊢
      obtain ⟨os, h3, hg⟩ := bind_ok.mp hg
      obtain ⟨as, h4, hg⟩ := bind_ok.mp hg
      obtain ⟨regions, h5, hg⟩ := bind_ok.mp hg
      obtain ⟨seqs, h6, hg'⟩ := bind_ok.mp hg
      rw [hsd] at h6
      obtain ⟨seqs0, h7, h8⟩ := allSequences_more h6
      simp only [h3, h4, h5, h7, ok_bind]
      obtain ⟨hz, groups, rfl, g1, g2, g3⟩ := C38_order h5
      have hd := allSequences_depths (done := []) (flatten_pairwise g1 g3) (fun o ho => by
        obtain ⟨f, hf, he⟩ := ops_depth h5 (o := o) ho
        rw [← he]
        exact hz f (List.mem_append_left _ hf)) h6
      exact routeSequences_more h8 .nil hd.2 (fun f hf => by have := (hd.1 f hf).2; rw [hs]; linarith) hg'

/-! ### Profiles -/

theorem routeWire_vertex {veq : Vec → Vec → Bool} {j : Job} {hit : Option WireHit} {pos : AddrVec} {w : List Edge}
    (h : ∀ x, hit = some x → ∃ d q, x = .vertex d q) : routeWire veq j none hit pos w = routeWire veq j none none pos w := by
  have hp : hit.bind WireHit.param = none := by
    cases hit with
    | none => rfl
    | some x => obtain ⟨d, q, rfl⟩ := h x rfl; rfl
  unfold routeWire enterWire
  simp only [wireLink, hp, Option.bind_none]

theorem routeWiresFrom_more {veq : Vec → Vec → Bool} {search : Vec → List Edge → Option WireHit} {j : Job} {old : List Operation}
    {ws0 ws : List (List Edge)} (hsub : ws0.Sublist ws)
    (h : ∀ w ∈ ws, w ≠ [] ∧ (∀ e, w.head? = some e → (edgeStartPoint e).z < j.opSafeHeight) ∧
      ∀ v x, search v w = some x → ∃ d q, x = .vertex d q) :
    ∀ {acc0 acc r : List Motion} {pwe0 pwe : Option Vec} {pos0 pos : AddrVec}, MoreCuts acc0 acc →
    routeWiresFrom veq search j none acc pwe pos ws = .ok r →
    ∃ r0, routeWiresFrom veq search { j with operations := old } none acc0 pwe0 pos0 ws0 = .ok r0 ∧ MoreCuts r0 r := by
  have hv : ∀ {w : List Edge}, (∀ v x, search v w = some x → ∃ d q, x = .vertex d q) → ∀ p : Option Vec, ∀ x, p.bind (search · w) = some x →
      ∃ d q, x = .vertex d q := by
    intro w hw p x hx
    cases p with
    | none => cases hx
    | some v => exact hw v x hx
  induction hsub with
  | slnil =>
    intro acc0 acc r pwe0 pwe pos0 pos ha hr
    cases hr
    exact ⟨acc0, rfl, ha⟩
  | @cons l1 l2 w _ ih =>
    intro acc0 acc r pwe0 pwe pos0 pos ha hr
    cases w with
    | nil => exact ((h [] (by simp)).1 rfl).elim
    | cons e es =>
      simp only [routeWiresFrom] at hr
      split at hr
      · cases hr
      · exact ih (fun w hw => h w (by simp [hw])) (ha.skip _) hr
  | @cons_cons l1 l2 w _ ih =>
    intro acc0 acc r pwe0 pwe pos0 pos ha hr
    cases w with
    | nil => exact ((h [] (by simp)).1 rfl).elim
    | cons e es =>
      obtain ⟨-, hz, hs⟩ := h (e :: es) (by simp)
      simp only [routeWiresFrom] at hr ⊢
      rw [routeWire_vertex (hv hs _)] at hr ⊢
      have h1 := routeWire_heights (veq := veq) (old := old) (j := j) (R := j.rapidHeight) (S := j.opSafeHeight) (pos := pos) (pos' := pos0)
        (hit := none) (w := e :: es) (fun e he => ⟨hz e he, hz e he⟩)
      cases hx : routeWire veq j none none pos (e :: es) with
      | error x => rw [hx] at hr; cases hr
      | ok x =>
        obtain ⟨y, hy, b1, b2, b3⟩ := h1.ok_left hx
        obtain ⟨cs, fin⟩ := x
        obtain ⟨cs', fin'⟩ := y
        have hy' : routeWire veq { j with operations := old } none none pos0 (e :: es) = .ok (cs', fin') := hy
        rw [hx] at hr
        rw [hy']
        simp only at b1 b2 b3 hr ⊢
        exact ih (fun w hw => h w (by simp [hw])) (ha.append (MoreCuts.of b1.symm)) hr

theorem profileWires_more {cad : Cad} {j : Job} {wire : List Edge} {offset : ℚ} {sd : Option ℚ} {tabs : Option Tabs} {ws : List (List Edge)}
    (h : profileWires cad j wire offset sd tabs = .ok ws) :
    ∃ ws0, profileWires cad j wire offset none tabs = .ok ws0 ∧ ws0.Sublist ws := by
  unfold profileWires at h ⊢
  cases hr : j.toolRadius with
  | none => rw [hr] at h; cases h
  | some r =>
    rw [hr] at h
    obtain ⟨bases, h1, h⟩ := bind_ok.mp h
    obtain ⟨ls, h2, h⟩ := bind_ok.mp h
    cases h
    have key : ∀ b l, profileFeature cad j.top sd tabs b = .ok l → ∃ l0, profileFeature cad j.top none tabs b = .ok l0 ∧ l0.Sublist l := by
      intro b l hl
      unfold profileFeature at hl ⊢
      obtain ⟨layers, h3, hl⟩ := bind_ok.mp hl
      have hsub : [b].Sublist layers := by
        rw [List.singleton_sublist]
        unfold profileLayers at h3
        cases sd with
        | none => cases h3; simp
        | some s =>
          simp only at h3
          split at h3
          · cases h3; simp
          · obtain ⟨steps, -, h3⟩ := bind_ok.mp h3
            cases h3
            simp
      have h4 : profileLayers cad j.top b none = .ok [b] := rfl
      rw [h4]
      simp only [ok_bind]
      cases tabs with
      | none => cases hl; exact ⟨_, rfl, hsub⟩
      | some t => exact mapE_sublist hsub hl
    have hall : ∀ bs ls, mapE (profileFeature cad j.top sd tabs) bs = .ok ls →
        ∃ ls0, mapE (profileFeature cad j.top none tabs) bs = .ok ls0 ∧ ls0.flatten.Sublist ls.flatten := by
      intro bs
      induction bs with
      | nil => intro ls h; cases h; exact ⟨[], rfl, List.Sublist.refl _⟩
      | cons b bs ih =>
        intro ls h
        simp only [mapE] at h
        obtain ⟨l, h3, h⟩ := bind_ok.mp h
        obtain ⟨rest, h4, h⟩ := bind_ok.mp h
        cases h
        obtain ⟨l0, k1, k2⟩ := key b l h3
        obtain ⟨rest0, k3, k4⟩ := ih rest h4
        refine ⟨l0 :: rest0, by simp only [mapE, k1, k3, ok_bind], ?_⟩
        simp only [List.flatten_cons]
        exact k2.append k4
    obtain ⟨ls0, k1, k2⟩ := hall bases ls h2
    exact ⟨ls0.flatten, by simp only [h1, k1, ok_bind], k2⟩

theorem profiles_more {cad : Cad} {j : Job} {old : List Operation} {offset : ℚ} {sd : Option ℚ} {tabs : Option Tabs} {wires : List (List Edge)}
    (hw : ∀ w ∈ wires, PlainPasses cad j.top offset sd tabs j.opSafeHeight w) {cs : List Motion} (h : profiles cad j offset sd tabs wires = .ok cs) :
    ∃ cs0, profiles cad { j with operations := old } offset none tabs wires = .ok cs0 ∧ MoreCuts cs0 cs := by
  unfold profiles at h ⊢
  obtain ⟨css, h1, h⟩ := bind_ok.mp h
  cases h
  have : ∃ css0, mapE (fun w => profile cad { j with operations := old } w offset none tabs) wires = .ok css0 ∧ List.Forall₂ MoreCuts css0 css := by
    clear * - hw h1
    induction wires generalizing css with
    | nil => cases h1; exact ⟨[], rfl, .nil⟩
    | cons w wires ih =>
      simp only [mapE] at h1
      obtain ⟨c, h2, h1⟩ := bind_ok.mp h1
      obtain ⟨rest, h3, h1⟩ := bind_ok.mp h1
      cases h1
      obtain ⟨rest0, h4, h5⟩ := ih (fun w hm => hw w (by simp [hm])) _ h3
      obtain ⟨ws, h6, h7⟩ := bind_ok.mp h2
      obtain ⟨ws0, h8, h9⟩ := profileWires_more h6
      obtain ⟨c0, h10, h11⟩ := routeWiresFrom_more (old := old) (acc0 := []) (pwe0 := none) (pos0 := {}) h9
        (fun v hv => hw w (by simp) j ws rfl h6 v hv) .nil h7
      refine ⟨c0 :: rest0, ?_, .cons h11 h5⟩
      have h8' : profileWires cad { j with operations := old } w offset none tabs = .ok ws0 := h8
      have h10' : routeWires cad.veq cad.search { j with operations := old } ws0 = .ok c0 := h10
      simp only [mapE, profile, h8', h10', ok_bind]
      simp only [profile] at h4
      simp only [h4, ok_bind]
  obtain ⟨css0, h2, h3⟩ := this
  exact ⟨css0.flatten, by simp only [h2, ok_bind], MoreCuts.flatten h3⟩

/-- C127, for wire profiles. -/
theorem C127_wire_profile_partial {cad : Cad} {wires : List (List Edge)} {offset : ℚ} {sd : Option ℚ} {tabs : Option Tabs} {tool : Option Tool}
    {top : Frame} {S : ℚ} (h : ∀ w ∈ wires, PlainPasses cad top offset sd tabs S w) :
    AddsOnly top S (wireProfileRequest cad wires offset none tabs tool) (wireProfileRequest cad wires offset sd tabs tool) where
  tool := rfl
  pre := fun _ _ _ h => h
  gen := fun j old cs' ht hs hg => by
    subst ht hs
    exact profiles_more h hg

/-- C127, for profiles. -/
theorem C127_profile_partial {cad : Cad} {shapes : List Shape} {oo io : Option ℚ} {sd : Option ℚ} {tabs : Option Tabs} {tool : Option Tool}
    {top : Frame} {S : ℚ} (h : ∀ os is, extractWires shapes = .ok (os, is) →
      (∀ o, oo = some o → ∀ w ∈ os, PlainPasses cad top o sd tabs S w) ∧ ∀ o, io = some o → ∀ w ∈ is, PlainPasses cad top o sd tabs S w) :
    AddsOnly top S (profileRequest cad shapes oo io none tabs tool) (profileRequest cad shapes oo io sd tabs tool) where
  tool := rfl
  pre := fun _ _ _ h => h
  gen := fun j old cs' ht hs hg => by
    subst ht hs
    simp only [profileRequest] at hg ⊢
    cases he : extractWires shapes with
    | error e => rw [he] at hg; cases hg
    | ok x =>
      obtain ⟨os, is⟩ := x
      obtain ⟨ho, hi⟩ := h os is he
      rw [he] at hg
      simp only [ok_bind] at hg ⊢
      obtain ⟨a, h1, hg⟩ := bind_ok.mp hg
      obtain ⟨b, h2, hg⟩ := bind_ok.mp hg
      cases hg
      have key : ∀ (o : Option ℚ) (ws : List (List Edge)) cs, (∀ v, o = some v → ∀ w ∈ ws, PlainPasses cad j.top v sd tabs j.opSafeHeight w) →
          profilesOpt cad j o sd tabs ws = .ok cs →
          ∃ cs0, profilesOpt cad { j with operations := old } o none tabs ws = .ok cs0 ∧ MoreCuts cs0 cs := by
        intro o ws cs hw hc
        cases o with
        | none => cases hc; exact ⟨[], rfl, .nil⟩
        | some v => exact profiles_more (hw v rfl) hc
      obtain ⟨a0, k1, k2⟩ := key io is a hi h1
      obtain ⟨b0, k3, k4⟩ := key oo os b ho h2
      exact ⟨a0 ++ b0, by simp only [k1, k3, ok_bind], k2.append k4⟩

/-! ### The whole program -/

/-- The same job after other operations, with fewer feed moves so far. -/
def After (j0 j : Job) (i : Job) : Prop := (∃ old, i = { j with operations := old }) ∧ j.top = j0.top ∧ j.opSafeHeight = j0.opSafeHeight

theorem After.updateTool {j0 j i : Job} (h : After j0 j i) (t : Option Tool) : After j0 (j.updateTool t).2 (i.updateTool t).2 := by
  obtain ⟨⟨old, rfl⟩, h1, h2⟩ := h
  obtain ⟨⟨old', h3⟩, h4, h5⟩ := updateTool_heights j j.rapidHeight j.opSafeHeight old t
  have h6 : (j.updateTool t).2.rapidHeight = j.rapidHeight := by
    cases t with
    | none => rfl
    | some t => simp only [Job.updateTool]; split_ifs <;> rfl
  refine ⟨⟨old', ?_⟩, h4.trans h1, h5.trans h2⟩
  have h7 : ({ j with operations := old } : Job) = j.atHeights j.rapidHeight j.opSafeHeight old := rfl
  rw [h7, h3, ← h5, ← h6]
  rfl

theorem After.addOperation {j0 j i : Job} (h : After j0 j i) (n n' : Text) (cs cs' : List Command) :
    After j0 (j.addOperation n cs) (i.addOperation n' cs') := by
  obtain ⟨⟨old, rfl⟩, h1, h2⟩ := h
  exact ⟨⟨_, rfl⟩, h1, h2⟩

theorem AddsOnly.use {j0 j i : Job} {r r' : Request} (hr : AddsOnly j0.top j0.opSafeHeight r r') (h : After j0 j i) (hp : r'.pre j = .ok ())
    {cs' : List Motion} (hg : r'.gen (j.updateTool r'.tool).2 = .ok cs') :
    r.pre i = .ok () ∧ ∃ cs, r.gen (i.updateTool r.tool).2 = .ok cs ∧ MoreCuts cs cs' := by
  have hu := h.updateTool r'.tool
  constructor
  · obtain ⟨⟨old, rfl⟩, h1, h2⟩ := h
    exact hr.pre j old h2 hp
  · obtain ⟨⟨old, e⟩, h1, h2⟩ := hu
    rw [← hr.tool, e]
    exact hr.gen _ old cs' h1 h2 hg

theorem motions_add (i : Job) (n : Text) (ds : List Motion) : (i.addOperation n (ds.map .motion)).motions = i.motions ++ ds := by
  simp [Job.motions, Job.addOperation, motionsOf_motion]

theorem call_adds {j0 j i j' : Job} {r r' : Request} (hr : AddsOnly j0.top j0.opSafeHeight r r') (h : After j0 j i)
    (hm : MoreCuts i.motions j.motions) (hc : (j.call r').2 = .ok j') :
    ∃ i', (i.call r).2 = .ok i' ∧ After j0 j' i' ∧ MoreCuts i'.motions j'.motions := by
  simp only [Job.call] at hc ⊢
  cases hp : r'.pre j with
  | error e => rw [hp] at hc; cases hc
  | ok u =>
    rw [hp] at hc
    simp only at hc
    cases hg : r'.gen (j.updateTool r'.tool).2 with
    | error e => rw [hg] at hc; cases hc
    | ok cs' =>
      rw [hg] at hc
      simp only at hc
      cases hc
      obtain ⟨h1, cs, h2, h3⟩ := hr.use h hp hg
      rw [h1]
      simp only
      rw [h2]
      refine ⟨_, rfl, ?_, ?_⟩
      · have := (h.updateTool r'.tool).addOperation r'.opName r.opName (cs'.map .motion) (cs.map .motion)
        rwa [hr.tool] at this ⊢
      · rw [motions_add, motions_add, updateTool_motions, updateTool_motions]
        exact hm.append h3

/-- C127.  When a chain of calls with stepdowns is accepted, the chain without (some or all of) the stepdowns is accepted, and all its
feed moves are made by the first, in the same order: the stepdowns add passes and change nothing else. -/
theorem C127_program_partial {j jf' : Job} {rs rs' : List Request}
    (h : List.Forall₂ (AddsOnly j.top j.opSafeHeight) rs rs') (hc : j.chain rs' = .ok jf') :
    ∃ jf, j.chain rs = .ok jf ∧ MoreCuts jf.motions jf'.motions := by
  have ha : After j j j := ⟨⟨j.operations, rfl⟩, rfl, rfl⟩
  have hm : MoreCuts j.motions j.motions := MoreCuts.of (SameCuts.refl _)
  have key : ∀ {a i : Job} {rs rs' : List Request}, List.Forall₂ (AddsOnly j.top j.opSafeHeight) rs rs' → After j a i →
      MoreCuts i.motions a.motions → ∀ {jf'}, a.chain rs' = .ok jf' → ∃ jf, i.chain rs = .ok jf ∧ MoreCuts jf.motions jf'.motions := by
    intro a i rs rs' h
    induction h generalizing a i with
    | nil => intro _ hm jf' hc; cases hc; exact ⟨i, rfl, hm⟩
    | @cons r r' rs rs' hr _ ih =>
      intro ha hm jf' hc
      simp only [Job.chain] at hc ⊢
      cases hx : (a.call r').2 with
      | error e => rw [hx] at hc; cases hc
      | ok a' =>
        rw [hx] at hc
        obtain ⟨i', h1, h2, h3⟩ := call_adds hr ha hm hx
        rw [h1]
        exact ih h2 h3 hc
  exact key h ha hm hc

/-! ### On the machine -/

theorem chainMoves_adds {j0 : Job} {rs rs' : List Request} (h : List.Forall₂ (AddsOnly j0.top j0.opSafeHeight) rs rs') :
    ∀ {j i jf' : Job}, After j0 j i → j.chain rs' = .ok jf' → List.Forall₂ MoreCuts (chainMoves i rs) (chainMoves j rs') := by
  induction h with
  | nil => intro _ _ _ _ _; exact .nil
  | @cons r r' rs rs' hr _ ih =>
    intro j i jf' ha hc
    simp only [Job.chain] at hc
    cases hx : (j.call r').2 with
    | error e => rw [hx] at hc; cases hc
    | ok j' =>
      rw [hx] at hc
      simp only [Job.call] at hx
      cases hp : r'.pre j with
      | error e => rw [hp] at hx; cases hx
      | ok u =>
        rw [hp] at hx
        simp only at hx
        cases hg : r'.gen (j.updateTool r'.tool).2 with
        | error e => rw [hg] at hx; cases hx
        | ok cs' =>
          rw [hg] at hx
          simp only at hx
          cases hx
          obtain ⟨h1, cs, h2, h3⟩ := hr.use ha hp hg
          simp only [chainMoves, Job.call, hp, h1, hg, h2]
          refine .cons h3 (ih ?_ hc)
          have := (ha.updateTool r'.tool).addOperation r'.opName r.opName (cs'.map .motion) (cs.map .motion)
          rwa [hr.tool] at this ⊢

theorem performs_more {l l' : List Event} {cs cs' : List Motion} (h : List.SublistForall₂ SameCut cs cs') (hp : List.Forall₂ Performs l cs)
    (hq : List.Forall₂ Performs l' cs') : List.SublistForall₂ MovesAlike l l' := by
  induction h generalizing l l' with
  | nil => cases hp; exact .nil
  | cons hc _ ih =>
    cases hp with
    | cons h1 h2 =>
      cases hq with
      | cons h3 h4 => exact .cons (performs_sameCut hc h1 h3) (ih h2 h4)
  | cons_right _ ih =>
    cases hq with
    | cons h3 h4 => exact .cons_right (ih hp h4)

/-- C127 on the machine: call by call, the feed moves made without stepdowns are among those made with them, in the same order. -/
theorem C127_machine_partial {j0 jf' : Job} {rs rs' : List Request} (m m' : Machine) (h0 : InitOK j0)
    (hn : ∀ v, j0.toolNumber = some v → NumOK v) (hok : ChainOK j0 rs) (hok' : ChainOK j0 rs')
    (hw : List.Forall₂ (AddsOnly j0.top j0.opSafeHeight) rs rs') (h : j0.chain rs' = .ok jf')
    (hend : m.ended = false) (hend' : m'.ended = false) (htool : ∀ n, j0.toolNumber = some n → m.tool = some n.value)
    (htool' : ∀ n, j0.toolNumber = some n → m'.tool = some n.value) :
    ∃ jf t t' m1 m1' a b c a' b' c' evss evss', j0.chain rs = .ok jf ∧ jf.toGcode = .ok t ∧
      jf'.toGcode = .ok t' ∧ runText m t = some (m1, a :: (evss.flatten ++ [b, c])) ∧
      runText m' t' = some (m1', a' :: (evss'.flatten ++ [b', c'])) ∧ evss.length = rs.length ∧
      (isMove a = false ∧ isMove b = false ∧ isMove c = false) ∧ (isMove a' = false ∧ isMove b' = false ∧ isMove c' = false) ∧
      List.Forall₂ (fun evs evs' => List.SublistForall₂ MovesAlike (evs.filter isFeedMove) (evs'.filter isFeedMove)) evss evss' := by
  obtain ⟨jf, hc, -⟩ := C127_program_partial hw h
  obtain ⟨t, m1, a, b, c, evss, p1, p2, p3, p4, p5, p6, p7, -⟩ := chain_program m h0 hn hok hc hend htool
  obtain ⟨t', m1', a', b', c', evss', q1, q2, q3, q4, q5, q6, q7, -⟩ := chain_program m' h0 hn hok' h hend' htool'
  refine ⟨jf, t, t', m1, m1', a, b, c, a', b', c', evss, evss', hc, p1, q1, p2, q2, ?_, ?_, ?_, ?_⟩
  · rw [p7.length_eq, requestSettings_length]
  · simp [isMove, p3, p4, p5]
  · simp [isMove, q3, q4, q5]
  · have hm := chainMoves_adds hw (j := j0) (i := j0) ⟨⟨j0.operations, rfl⟩, rfl, rfl⟩ h
    clear p2 p7 q2 q7
    generalize chainMoves j0 rs = css at p6 hm
    generalize chainMoves j0 rs' = css' at q6 hm
    revert q6 css' evss'
    induction p6 with
    | nil =>
      intro evss' css' q6 hm
      cases hm
      cases q6
      exact .nil
    | @cons evs cs evss css hp hps ih =>
      intro evss' css' q6 hm
      cases hm with
      | @cons _ cs' _ css'' hcs hcss =>
        cases q6 with
        | @cons evs' _ evss'' _ hq hqs =>
          exact .cons (performs_more hcs (performs_filter hp) (performs_filter hq)) (ih _ _ hqs hcss)

end CQ
