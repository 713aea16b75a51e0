import Verif.Spec.Machining
import Verif.Props.Fluent
import Verif.Props.Drill
import Verif.Props.PocketPath
import Verif.Props.ProfilePath
import Verif.Props.Surface

/-! # C60, C65, C66: feeds, homing, and the start of operations -/

namespace CQ

/-! ### C60 -/

theorem withFeed_mot (m : Machine) (c : Motion) :
    (withFeed m c).feed = if c.kind.mot = .rapid then m.feed else (c.feed.map PyNum.value).or m.feed := by
  unfold withFeed
  cases hk : c.kind <;> simp [MKind.isFeed, MKind.mot]

theorem effect_feed {m : Machine} {c : Command} (hc : ∀ x, c ≠ .motion x) : (c.effect m).1.feed = m.feed := by
  cases c with
  | motion c => exact absurd rfl (hc c)
  | start s c =>
    rcases c with _ | c
    · rfl
    · cases c <;> rfl
  | stop c => cases c <;> rfl
  | safety => rfl
  | toolChange n s c =>
    rcases c with _ | c
    · rfl
    · cases c <;> rfl

theorem effect_noMove {m : Machine} {c : Command} (hc : ∀ x, c ≠ .motion x) : ∀ e ∈ (c.effect m).2, isFeedMove e = false := by
  cases c with
  | motion c => exact absurd rfl (hc c)
  | start s c => intro e he; cases he
  | stop c => intro e he; cases he
  | safety => intro e he; rw [List.mem_singleton.mp he]; rfl
  | toolChange n s c =>
    intro e he
    simp only [Command.effect, toolChangeEffect, List.mem_cons, List.not_mem_nil, or_false] at he
    rcases he with rfl | rfl | rfl <;> rfl

theorem motionsOf_cons_other {c : Command} {cs : List Command} (hc : ∀ x, c ≠ .motion x) :
    motionsOf (c :: cs) = motionsOf cs := by
  cases c with
  | motion c => exact absurd rfl (hc c)
  | start s c => rfl
  | stop c => rfl
  | safety => rfl
  | toolChange n s c => rfl

/-- The machine has a feed at every feed move if it has one from the start or the first feed move brings it, and only then. -/
theorem effects_feed (cs : List Command) : ∀ m : Machine,
    (∀ e ∈ (effects m cs).2, isFeedMove e = true → e.st.feed ≠ none) ↔ (m.feed ≠ none ∨ FeedsSet (motionsOf cs)) := by
  induction cs with
  | nil => intro m; simp [effects, motionsOf, FeedsSet]
  | cons c cs ih =>
    intro m
    simp only [effects, List.mem_append]
    by_cases hc : ∃ x, c = .motion x
    · obtain ⟨x, rfl⟩ := hc
      have hst : ((Command.motion x).effect m).1.feed = (withFeed m x).feed := rfl
      have hev : ((Command.motion x).effect m).2 = [⟨withFeed m x, .move x.kind.mot (reach x.fin m.pos) (centreOff x)⟩] := rfl
      rw [hev]
      simp only [List.mem_singleton]
      have key := ih ((Command.motion x).effect m).1
      rw [hst, withFeed_mot] at key
      by_cases hr : x.kind.mot = .rapid
      · rw [if_pos hr] at key
        simp only [motionsOf, FeedsSet, if_pos hr]
        rw [← key]
        constructor
        · intro h e he; exact h e (.inr he)
        · rintro h e (rfl | he) hf
          · simp [isFeedMove, hr] at hf
          · exact h e he hf
      · rw [if_neg hr] at key
        simp only [motionsOf, FeedsSet, if_neg hr]
        constructor
        · intro h
          have := h _ (.inl rfl) (by simp [isFeedMove, hr])
          simp only at this
          rw [withFeed_mot, if_neg hr] at this
          by_contra hn
          push Not at hn
          rw [hn.1, hn.2] at this
          exact this rfl
        · intro h
          have hne : (x.feed.map PyNum.value).or m.feed ≠ none := by
            rcases h with h | h
            · cases hx : x.feed with
              | none => simpa using h
              | some f => simp
            · cases hx : x.feed with
              | none => exact absurd hx h
              | some f => simp
          have hrest := key.mpr (.inl hne)
          rintro e (rfl | he) hf
          · simp only; rw [withFeed_mot, if_neg hr]; exact hne
          · exact hrest e he hf
    · push Not at hc
      rw [motionsOf_cons_other hc]
      have key := ih (c.effect m).1
      rw [effect_feed hc] at key
      rw [← key]
      constructor
      · intro h e he; exact h e (.inr he)
      · rintro h e (he | he) hf
        · rw [effect_noMove hc e he] at hf; cases hf
        · exact h e he hf

/-- C60, exactly when it holds: on a machine without a feed, every feed move of the program is made with a feed if and only if
the first feed move of the job's command list carries one. -/
theorem C60_iff {j : Job} (m : Machine) (h : JobOK j) (hend : m.ended = false) (hm : m.feed = none) :
    ∃ t m' evs, j.toGcode = .ok t ∧ runText m t = some (m', evs) ∧
      ((∀ e ∈ evs, isFeedMove e = true → e.st.feed ≠ none) ↔ FeedsSet (motionsOf j.allCommands)) := by
  obtain ⟨t, ht, hr⟩ := run_job m j h hend
  refine ⟨t, (j.intended m).1, (j.intended m).2, ht, hr, ?_⟩
  have hmo : motionsOf j.program = motionsOf j.allCommands := by
    have : ∀ (a b : List Command), motionsOf (a ++ b) = motionsOf a ++ motionsOf b := by
      intro a b
      induction a with
      | nil => rfl
      | cons c a ih => cases c <;> simp [motionsOf, ih]
    unfold Job.program
    rw [this, this]
    simp [motionsOf]
  have key := effects_feed j.program m
  rw [hmo] at key
  simp only [hm, ne_eq, not_true_eq_false, false_or] at key
  rw [← key]
  simp only [Job.intended, List.mem_append, List.mem_singleton]
  constructor
  · intro h e he; exact h e (.inl he)
  · rintro h e (he | rfl) hf
    · exact h e he hf
    · cases hf

theorem reachWith_reach {P : Request → Prop} {j0 j : Job} (h : ReachWith P j0 j) : Reach j0 j := by
  induction h with
  | init => exact .init
  | result r _ _ hr e ih => exact .result r ih hr e
  | receiver r _ _ hr ih => exact .receiver r ih hr

theorem updateTool_origin {P : Request → Prop} {j : Job} (h : ∀ o ∈ j.operations, Origin P o) (t : Option Tool) :
    ∀ o ∈ (j.updateTool t).2.operations, Origin P o := by
  cases t with
  | none => exact h
  | some t =>
    rcases updateTool_some j t with ⟨-, e⟩ | ⟨-, -, e⟩ | ⟨-, -, e⟩
    · rw [e]
      intro o ho
      simp only [Job.withSettings, Job.addOperation, List.mem_append, List.mem_singleton] at ho
      rcases ho with ho | rfl
      · exact h o ho
      · exact .inl ⟨_, _, _, rfl⟩
    · rw [e]
      intro o ho
      simp only [Job.withSettings, Job.addOperation, List.mem_append, List.mem_singleton] at ho
      rcases ho with ho | rfl
      · exact h o ho
      · exact .inr (.inl ⟨_, _, rfl⟩)
    · rw [e]; exact h

/-- Every operation of a job comes from a call, or is a tool or speed change. -/
theorem reach_origin {P : Request → Prop} {j0 j : Job} (h0 : j0.operations = []) (h : ReachWith P j0 j) :
    ∀ o ∈ j.operations, Origin P o := by
  induction h with
  | init => simp [h0]
  | @result j j' r _ hp _ e ih =>
    obtain ⟨-, cs, hg, rfl⟩ := call_ok e
    intro o ho
    simp only [Job.addOperation, List.mem_append, List.mem_singleton] at ho
    rcases ho with ho | rfl
    · exact updateTool_origin ih _ o ho
    · exact .inr (.inr ⟨r, _, cs, hp, hg, rfl⟩)
  | @receiver j r _ _ _ ih =>
    have : (j.call r).1 = j ∨ (j.call r).1 = (j.updateTool r.tool).1 := by
      unfold Job.call
      split
      · exact .inl rfl
      · dsimp only
        split <;> exact .inr rfl
    rcases this with e | e
    · rw [e]; exact ih
    · rw [e]
      rcases updateTool_receiver j r.tool with e | e <;> rw [e]
      · exact ih
      · exact updateTool_origin ih _

theorem motionsOf_map (cs : List Motion) : motionsOf (cs.map .motion) = cs := by
  induction cs with
  | nil => rfl
  | cons c cs ih => simp [motionsOf, ih]

theorem motionsOf_append (a b : List Command) : motionsOf (a ++ b) = motionsOf a ++ motionsOf b := by
  induction a with
  | nil => rfl
  | cons c a ih => cases c <;> simp [motionsOf, ih]

theorem mem_motionsOf_flatten {l : List (List Command)} {c : Motion} (h : c ∈ motionsOf l.flatten) :
    ∃ x ∈ l, c ∈ motionsOf x := by
  induction l with
  | nil => cases h
  | cons a l ih =>
    rw [List.flatten_cons, motionsOf_append] at h
    rcases List.mem_append.mp h with h | h
    · exact ⟨a, by simp, h⟩
    · obtain ⟨x, hx, h⟩ := ih h
      exact ⟨x, by simp [hx], h⟩

theorem feedsSet_of_given {cs : List Motion} (h : FeedsGiven cs) : FeedsSet cs := by
  induction cs with
  | nil => trivial
  | cons c cs ih =>
    unfold FeedsSet
    split
    · exact ih (fun c hc => h c (by simp [hc]))
    · exact h c (by simp) (by assumption)

/-- C60, for jobs made of operations that give their feed moves a feed (pockets, profiles and drilling do, see below; 3D
surfacing does not): every feed move of the program is made with a feed. -/
theorem C60_feeds_partial {j0 j : Job} (m : Machine) (h0 : InitOK j0) (hn : ∀ v, j0.toolNumber = some v → NumOK v)
    (h : ReachWith (fun r => ∀ j cs, r.gen j = .ok cs → FeedsGiven cs) j0 j) (hend : m.ended = false) :
    ∃ t m' evs, j.toGcode = .ok t ∧ runText m t = some (m', evs) ∧ ∀ e ∈ evs, isFeedMove e = true → e.st.feed ≠ none := by
  have hok := (inv_reach (inv_init h0 hn) (reachWith_reach h)).ok
  have hg : FeedsGiven (motionsOf j.allCommands) := by
    intro c hc
    obtain ⟨x, hx, hc⟩ := mem_motionsOf_flatten hc
    obtain ⟨o, ho, rfl⟩ := List.mem_map.mp hx
    rcases reach_origin h0.fresh h o ho with ⟨_, _, _, e⟩ | ⟨_, _, e⟩ | ⟨r, j', cs, hp, hgen, e⟩
    · rw [e] at hc; cases hc
    · rw [e] at hc; cases hc
    · rw [e, motionsOf_map] at hc
      exact hp j' cs hgen c hc
  obtain ⟨t, ht, hr⟩ := run_job m j hok hend
  refine ⟨t, (j.intended m).1, (j.intended m).2, ht, hr, ?_⟩
  have hmo : motionsOf j.program = motionsOf j.allCommands := by
    unfold Job.program
    rw [motionsOf_append, motionsOf_append]
    simp [motionsOf]
  have key := (effects_feed j.program m).mpr (.inr (by rw [hmo]; exact feedsSet_of_given hg))
  simp only [Job.intended, List.mem_append, List.mem_singleton]
  rintro e (he | rfl) hf
  · exact key e he hf
  · cases hf

/-- A plunging move runs at the job's plunge feed, every other feed move at its feed. -/
def FeedOf (j : Job) (c : Motion) : Prop :=
  (c.kind ≠ .plungeCut ∧ c.feed = some j.feed) ∨ (c.kind = .plungeCut ∧ c.feed = some j.plungeFeed)

theorem feedOf_given {j : Job} {cs : List Motion} (h : ∀ c ∈ cs, c.kind.mot ≠ .rapid → FeedOf j c) : FeedsGiven cs := by
  intro c hc hk
  rcases h c hc hk with ⟨-, h⟩ | ⟨-, h⟩ <;> rw [h] <;> simp

/-- C60 for pockets: every plunging move has the job's plunge feed, every other feed move its feed. -/
theorem C60_pocket {eng : Clipper} {veq : Vec → Vec → Bool} {fuel : ℕ} {opAreas avoidAreas : List CqFace}
    {a : PocketArgs} {tool : Option Tool} {j : Job} {cs : List Motion}
    (h : (pocketRequest eng veq fuel opAreas avoidAreas a tool).gen j = .ok cs) :
    ∀ c ∈ cs, c.kind.mot ≠ .rapid → FeedOf j c := by
  change pocket eng veq fuel opAreas avoidAreas a j = .ok cs at h
  unfold pocket at h
  cases hr : j.toolRadius with
  | none => rw [hr] at h; cases h
  | some r =>
    rw [hr] at h
    obtain ⟨ops, h1, h⟩ := bind_ok.mp h
    obtain ⟨avoids, h2, h⟩ := bind_ok.mp h
    obtain ⟨-, -, -, g4⟩ := C45_pocket_path h
    intro c hc hk
    obtain ⟨z, ⟨-, hf⟩, -⟩ := g4 c hc hk
    rcases hf with ⟨hk, hf⟩ | ⟨hk, -, hf⟩
    · exact .inl ⟨by rw [hk]; decide, hf⟩
    · exact .inr ⟨hk, hf⟩

/-- C60 for drilling: every feed move is a plunge at the job's feed. -/
theorem C60_drill {center : List Edge → Except Err Vec} {o : Option (List DrillObj)} {depth : Option ℚ} {tool : Option Tool}
    {j : Job} {cs : List Motion} (h : (drillRequest center o depth tool).gen j = .ok cs) :
    ∀ c ∈ cs, c.kind.mot ≠ .rapid → c.kind = .plungeCut ∧ c.feed = some j.feed := by
  have key : ∀ (d : ℚ) (ps : List Pt) (pos : AddrVec), ∀ c ∈ drillHoles j d pos ps, c.kind.mot ≠ .rapid → c.kind = .plungeCut ∧ c.feed = some j.feed := by
    intro d ps
    induction ps with
    | nil => intro pos c hc; cases hc
    | cons p ps ih =>
      intro pos c hc hk
      rcases List.mem_append.mp hc with hc | hc
      · simp only [drillHole, List.mem_cons, List.not_mem_nil, or_false] at hc
        rcases hc with rfl | rfl | rfl | rfl
        · exact absurd rfl hk
        · exact absurd rfl hk
        · exact absurd rfl hk
        · exact ⟨rfl, rfl⟩
      · exact ih _ c hc hk
  change drill center o depth j = .ok cs at h
  unfold drill at h
  cases o with
  | none => cases h
  | some o =>
    cases depth with
    | none => cases h
    | some d =>
      obtain ⟨vs, -, h⟩ := bind_ok.mp h
      dsimp only at h
      split at h
      · cases h
      · obtain ⟨ps, -, h⟩ := bind_ok.mp h
        cases h
        exact key _ _ _

theorem routeEdge_feed {veq : Vec → Vec → Bool} {e : Edge} {prec : ℕ} {sp ep : Option ℚ} {feed : Option PyNum}
    {cs : List Motion} {v : Vec} (h : routeEdge veq e prec sp ep feed = .ok (cs, v)) :
    ∀ c ∈ cs, c.kind ≠ .plungeCut ∧ c.feed = feed := by
  have hpts : ∀ (pos : AddrVec) (vs : List Vec), ∀ c ∈ cutsThroughPoints feed pos vs, c.kind ≠ .plungeCut ∧ c.feed = feed := by
    intro pos vs
    induction vs generalizing pos with
    | nil => simp [cutsThroughPoints]
    | cons v vs ih =>
      intro c hc
      rcases List.mem_cons.mp hc with rfl | hc
      · exact ⟨by simp [cutAbs], rfl⟩
      · exact ih _ c hc
  have harc : ∀ {ds}, routeArc veq e sp ep feed = .ok ds → ∀ c ∈ ds, c.kind ≠ .plungeCut ∧ c.feed = feed := by
    intro ds hd
    unfold routeArc at hd
    simp only at hd
    cases hcw : isArcClockwise2 e.normal e.reversed with
    | error x => rw [hcw] at hd; cases hd
    | ok b =>
      rw [hcw] at hd
      simp only at hd
      split at hd
      · cases hd
        intro c hc
        simp only [List.mem_cons, List.not_mem_nil, or_false] at hc
        rcases hc with rfl | rfl <;> cases b <;> exact ⟨by simp, rfl⟩
      · split at hd <;> cases hd <;> intro c hc <;> rw [List.mem_singleton] at hc <;> subst hc
        · exact ⟨by simp [cutAbs], rfl⟩
        · cases b <;> exact ⟨by simp, rfl⟩
  unfold routeEdge at h
  simp only at h
  cases hg : e.geom <;> rw [hg] at h <;> simp only at h
  · cases h; intro c hc; rw [List.mem_singleton] at hc; subst hc; exact ⟨by simp [cutAbs], rfl⟩
  · cases ha : routeArc veq e sp ep feed with
    | error x => rw [ha] at h; cases h
    | ok ds => rw [ha] at h; cases h; exact harc ha
  · cases ha : routeArc veq e sp ep feed with
    | error x => rw [ha] at h; cases h
    | ok ds => rw [ha] at h; cases h; exact harc ha
  · cases h; exact hpts _ _
  · cases h; exact hpts _ _
  · cases h; exact hpts _ _
  · cases h

theorem routeEdges_feed {veq : Vec → Vec → Bool} {j : Job} {es : List Edge}
    {fin v : Vec} {cs : List Motion} (h : routeEdges veq j fin es = .ok (cs, v)) : ∀ c ∈ cs, c.kind ≠ .plungeCut ∧ c.feed = some j.feed := by
  induction es generalizing fin cs v with
  | nil => cases h; simp
  | cons e es ih =>
    unfold routeEdges at h
    cases h1 : routeEdge veq e j.precision none none (some j.feed) with
    | error x => rw [h1] at h; cases h
    | ok r =>
      obtain ⟨a, b⟩ := r
      rw [h1] at h
      simp only at h
      cases h2 : routeEdges veq j b es with
      | error x => rw [h2] at h; cases h
      | ok r =>
        obtain ⟨a', b'⟩ := r
        rw [h2] at h
        cases h
        intro c hc
        rcases List.mem_append.mp hc with hc | hc
        · exact routeEdge_feed h1 c hc
        · exact ih h2 c hc

theorem enterWire_feed {veq : Vec → Vec → Bool} {j : Job} {stepover : Option ℚ} {hit : Option WireHit}
    {pos : AddrVec} {edges es : List Edge} {app : List Motion}
    (he : enterWire veq j stepover hit pos edges = .ok (es, app)) : ∀ c ∈ app, c.kind.mot ≠ .rapid → FeedOf j c := by
  unfold enterWire at he
  cases hl : wireLink stepover hit with
  | some hh =>
    rw [hl] at he
    simp only at he
    cases hs : shiftEdges veq edges hh with
    | error x => rw [hs] at he; cases he
    | ok es' =>
      rw [hs] at he
      cases es' with
      | nil => cases he
      | cons e es' =>
        cases he
        intro c hc hk
        rw [List.mem_singleton] at hc
        subst hc
        exact .inl ⟨by simp [cutAbs], rfl⟩
  | none =>
    rw [hl] at he
    cases edges with
    | nil => cases he
    | cons e es' =>
      cases he
      intro c hc hk
      exact .inr ⟨(rapidTo_feeds _ _ _ _ _ c hc hk).1.1, (rapidTo_feeds _ _ _ _ _ c hc hk).2.1⟩

theorem routeWire_feed {veq : Vec → Vec → Bool} {j : Job} {stepover : Option ℚ} {hit : Option WireHit}
    {pos : AddrVec} {edges : List Edge} {cs : List Motion} {v : Vec}
    (h : routeWire veq j stepover hit pos edges = .ok (cs, v)) : ∀ c ∈ cs, c.kind.mot ≠ .rapid → FeedOf j c := by
  unfold routeWire at h
  cases he : enterWire veq j stepover hit pos edges with
  | error x => rw [he] at h; cases h
  | ok r =>
    obtain ⟨es, app⟩ := r
    have happ := enterWire_feed he
    rw [he] at h
    cases es with
    | nil => cases h
    | cons e es =>
      simp only at h
      cases h1 : routeEdge veq e j.precision (hit.bind WireHit.param) none (some j.feed) with
      | error x => rw [h1] at h; cases h
      | ok r =>
        obtain ⟨a, b⟩ := r
        rw [h1] at h
        simp only at h
        cases h2 : routeEdges veq j b es with
        | error x => rw [h2] at h; cases h
        | ok r =>
          obtain ⟨a', b'⟩ := r
          rw [h2] at h
          simp only at h
          have hbase : ∀ c ∈ app ++ a ++ a', c.kind.mot ≠ .rapid → FeedOf j c := by
            intro c hc hk
            rcases List.mem_append.mp hc with hc | hc
            · rcases List.mem_append.mp hc with hc | hc
              · exact happ c hc hk
              · exact .inl (routeEdge_feed h1 c hc)
            · exact .inl (routeEdges_feed h2 c hc)
          cases hp : hit.bind WireHit.param with
          | none => rw [hp] at h; cases h; exact hbase
          | some p =>
            rw [hp] at h
            simp only at h
            split at h
            · cases h; exact hbase
            · cases h3 : routeEdge veq e j.precision none (some p) (some j.feed) with
              | error x => rw [h3] at h; cases h
              | ok r =>
                obtain ⟨a'', b''⟩ := r
                rw [h3] at h
                cases h
                intro c hc hk
                rcases List.mem_append.mp hc with hc | hc
                · exact hbase c hc hk
                · exact .inl (routeEdge_feed h3 c hc)

/-- Feed moves along wires run at the job's feed or its plunge feed. -/
theorem routeWires_feed {veq : Vec → Vec → Bool} {search : Vec → List Edge → Option WireHit} {j : Job}
    {wires : List (List Edge)} {stepover : Option ℚ} {prev : Option AddrVec} {cs : List Motion}
    (h : routeWires veq search j wires stepover prev = .ok cs) : ∀ c ∈ cs, c.kind.mot ≠ .rapid → FeedOf j c := by
  have key : ∀ (ws : List (List Edge)) (acc : List Motion) (pwe : Option Vec) (pos : AddrVec) (cs : List Motion),
      (∀ c ∈ acc, c.kind.mot ≠ .rapid → FeedOf j c) →
      routeWiresFrom veq search j stepover acc pwe pos ws = .ok cs → ∀ c ∈ cs, c.kind.mot ≠ .rapid → FeedOf j c := by
    intro ws
    induction ws with
    | nil => intro acc pwe pos cs ha h; cases h; exact ha
    | cons w ws ih =>
      intro acc pwe pos cs ha h
      cases w with
      | nil => cases h; simp
      | cons e es =>
        simp only [routeWiresFrom] at h
        cases h1 : routeWire veq j stepover (pwe.bind (search · (e :: es))) pos (e :: es) with
        | error x => rw [h1] at h; cases h
        | ok r =>
          obtain ⟨ds, fin⟩ := r
          rw [h1] at h
          refine ih _ _ _ _ ?_ h
          intro c hc hk
          rcases List.mem_append.mp hc with hc | hc
          · exact ha c hc hk
          · exact routeWire_feed h1 c hc hk
  exact key wires [] none (prev.getD {}) cs (by simp) h

/-- C60 for `Job.wire_profile`. -/
theorem C60_wire_profile {cad : Cad} {wires : List (List Edge)} {offset : ℚ} {stepdown : Option ℚ} {tabs : Option Tabs}
    {tool : Option Tool} {j : Job} {cs : List Motion}
    (h : (wireProfileRequest cad wires offset stepdown tabs tool).gen j = .ok cs) :
    ∀ c ∈ cs, c.kind.mot ≠ .rapid → FeedOf j c := by
  change profiles cad j offset stepdown tabs wires = .ok cs at h
  obtain ⟨bs, h1, h⟩ := bind_ok.mp h
  cases h
  intro c hc
  obtain ⟨b, hb, hc⟩ := List.mem_flatten.mp hc
  obtain ⟨w, -, hw⟩ := mapE_mem h1 hb
  obtain ⟨ws, -, hw⟩ := bind_ok.mp hw
  exact routeWires_feed hw c hc

/-- C60 for `Job.profile`. -/
theorem C60_profile {cad : Cad} {shapes : List Shape} {outerOffset innerOffset stepdown : Option ℚ} {tabs : Option Tabs}
    {tool : Option Tool} {j : Job} {cs : List Motion}
    (h : (profileRequest cad shapes outerOffset innerOffset stepdown tabs tool).gen j = .ok cs) :
    ∀ c ∈ cs, c.kind.mot ≠ .rapid → FeedOf j c := by
  obtain ⟨⟨os, is⟩, -, h⟩ := bind_ok.mp h
  obtain ⟨a, h1, h⟩ := bind_ok.mp h
  obtain ⟨b, h2, h⟩ := bind_ok.mp h
  cases h
  have key : ∀ {o : Option ℚ} {ws : List (List Edge)} {cs : List Motion}, profilesOpt cad j o stepdown tabs ws = .ok cs →
      ∀ c ∈ cs, c.kind.mot ≠ .rapid → FeedOf j c := by
    intro o ws cs h
    cases o with
    | none => cases h; simp
    | some o => exact C60_wire_profile (tool := tool) h
  intro c hc
  rcases List.mem_append.mp hc with hc | hc
  · exact key h1 c hc
  · exact key h2 c hc

theorem surface_noFeed {eng : SurfaceEngine} {k : FaceKernel} {args : SurfaceArgs} {oo : ℚ × ℚ} {io : Option (ℚ × ℚ)}
    {bs : List BoundaryFace} {j : Job} {cs : List Motion} (h : surface3d eng k args oo io bs j = .ok cs) :
    ∀ c ∈ cs, c.feed = none := by
  have h1 : ∀ (d : ℚ) (ps : List Vec) (pos : AddrVec), ∀ c ∈ surfaceCuts d pos ps, c.feed = none := by
    intro d ps
    induction ps with
    | nil => intro pos c hc; cases hc
    | cons p ps ih =>
      intro pos c hc
      rcases List.mem_cons.mp hc with rfl | hc
      · rfl
      · exact ih _ c hc
  have h2 : ∀ (d : ℚ) (ps : List Vec) (pos : AddrVec), ∀ c ∈ pieceMoves j d pos ps, c.feed = none := by
    intro d ps pos c hc
    cases ps with
    | nil => cases hc
    | cons p ps =>
      rcases List.mem_append.mp hc with hc | hc
      · simp only [List.mem_cons, List.not_mem_nil, or_false] at hc
        rcases hc with rfl | rfl | rfl <;> rfl
      · exact h1 _ _ _ c hc
  have h3 : ∀ (d : ℚ) (ss : List (List Vec)) (pos : AddrVec), ∀ c ∈ piecesMoves j d pos ss, c.feed = none := by
    intro d ss
    induction ss with
    | nil => intro pos c hc; cases hc
    | cons s ss ih =>
      intro pos c hc
      rcases List.mem_append.mp hc with hc | hc
      · exact h2 _ _ _ c hc
      · exact ih _ c hc
  have h4 : ∀ (ds : List ℚ) (seqs : List (List Vec)) (rest : List ℚ) (i : ℕ) (pos : AddrVec),
      ∀ c ∈ passesMoves j ds seqs i pos rest, c.feed = none := by
    intro ds seqs rest
    induction rest with
    | nil => intro i pos c hc; cases hc
    | cons d rest ih =>
      intro i pos c hc
      rcases List.mem_append.mp hc with hc | hc
      · exact h3 _ _ _ c hc
      · exact ih _ _ c hc
  obtain ⟨css, rfl, hb⟩ := surface3d_ok h
  intro c hc
  obtain ⟨b, hbm, hc⟩ := List.mem_flatten.mp hc
  obtain ⟨poly, hp⟩ := hb b hbm
  obtain ⟨_, -, hp⟩ := bind_ok.mp hp
  obtain ⟨_, -, hp⟩ := bind_ok.mp hp
  obtain ⟨_, -, hp⟩ := bind_ok.mp hp
  obtain ⟨_, -, hp⟩ := bind_ok.mp hp
  cases hp
  exact h4 _ _ _ _ _ c hc

theorem not_feedsSet {cs : List Motion} (h : ∀ c ∈ cs, c.feed = none) (hc : ∃ c ∈ cs, c.kind.mot ≠ .rapid) :
    ¬ FeedsSet cs := by
  induction cs with
  | nil => simp at hc
  | cons c cs ih =>
    unfold FeedsSet
    split
    · rename_i hr
      refine ih (fun c hc => h c (by simp [hc])) ?_
      obtain ⟨c', hc', hk⟩ := hc
      rcases List.mem_cons.mp hc' with rfl | hc'
      · exact absurd hr hk
      · exact ⟨c', hc', hk⟩
    · simp [h c (by simp)]

/-- C60 fails for every job that is a single 3D surfacing operation with a cut: on a machine that has no feed yet, a cutting
move is executed without one, whatever the job's feed. -/
theorem C60_violated {j0 j' : Job} {eng : SurfaceEngine} {k : FaceKernel} {args : SurfaceArgs} {oo : ℚ × ℚ}
    {io : Option (ℚ × ℚ)} {bs : List BoundaryFace} (m : Machine) (h0 : InitOK j0)
    (hn : ∀ v, j0.toolNumber = some v → NumOK v) (hr : RequestOK j0 (surface3dRequest eng k args oo io bs))
    (h : (j0.call (surface3dRequest eng k args oo io bs)).2 = .ok j')
    (hcut : ∃ c ∈ motionsOf j'.allCommands, c.kind.mot ≠ .rapid) (hend : m.ended = false) (hm : m.feed = none) :
    ∃ t m' evs, j'.toGcode = .ok t ∧ runText m t = some (m', evs) ∧ ∃ e ∈ evs, isFeedMove e = true ∧ e.st.feed = none := by
  have hok := (inv_reach (inv_init h0 hn) (.result _ .init hr h)).ok
  obtain ⟨t, m', evs, h1, h2, h3⟩ := C60_iff m hok hend hm
  refine ⟨t, m', evs, h1, h2, ?_⟩
  obtain ⟨-, cs, hg, rfl⟩ := call_ok h
  have hmo : motionsOf (((j0.updateTool (surface3dRequest eng k args oo io bs).tool).2.addOperation
      (surface3dRequest eng k args oo io bs).opName (cs.map .motion)).allCommands) = cs := by
    have : (surface3dRequest eng k args oo io bs).tool = none := rfl
    simp only [this, Job.updateTool, Job.addOperation, Job.allCommands, h0.fresh]
    simp [motionsOf_map]
  rw [hmo] at hcut h3
  have := (not_congr h3).mpr (not_feedsSet (surface_noFeed hg) hcut)
  push Not at this
  exact this

/-- Moves whose numbers are printable, decided. -/
def plainMove (c : Motion) : Bool :=
  (match c.kind with | .cw | .ccw => false | _ => true) &&
  decide (c.fin ≠ {}) && [c.fin.x, c.fin.y, c.fin.z].all (fun v => match v with | none => true | some q => decide (|q| < 2 ^ 53)) &&
  (match c.feed with | none => true | some (.int _) => true | some (.flt _) => false)

theorem plainMove_ok {c : Motion} (h : plainMove c = true) : MotionOK c := by
  simp only [plainMove, Bool.and_eq_true, List.all_cons, List.all_nil, Bool.and_true, decide_eq_true_eq] at h
  obtain ⟨⟨⟨h1, h2⟩, h3, h4, h5⟩, h6⟩ := h
  refine ⟨⟨?_, ?_, ?_⟩, ?_, fun _ => h2, ?_⟩
  · intro q hq; rw [hq] at h3; exact .inl (by simpa using h3)
  · intro q hq; rw [hq] at h4; exact .inl (by simpa using h4)
  · intro q hq; rw [hq] at h5; exact .inl (by simpa using h5)
  · intro f hf
    rw [hf] at h6
    cases f with
    | int n => exact numOK_int n
    | flt q => cases h6
  · intro ha
    cases hk : c.kind <;> rw [hk] at h1 ha <;> first | exact absurd ha (by decide) | exact absurd h1 (by decide)

/-- A 3D surfacing of the hill, with cuts, meets the hypotheses of `C60_violated`. -/
example : RequestOK demoInit (surface3dRequest hillEngine idleKernel hillArgs (-1, 0) (some (1, 0)) [hillFace]) ∧
    ∃ j', (demoInit.call (surface3dRequest hillEngine idleKernel hillArgs (-1, 0) (some (1, 0)) [hillFace])).2 = .ok j' ∧
      ∃ c ∈ motionsOf j'.allCommands, c.kind.mot ≠ .rapid := by
  have h : (match surface3d hillEngine idleKernel hillArgs (-1, 0) (some (1, 0)) [hillFace] demoInit with
      | .ok cs => cs.all plainMove && cs.any (fun c => c.kind.mot ≠ .rapid)
      | .error _ => false) = true := by decide +kernel
  cases hr : surface3d hillEngine idleKernel hillArgs (-1, 0) (some (1, 0)) [hillFace] demoInit with
  | error e => rw [hr] at h; cases h
  | ok cs =>
    rw [hr] at h
    simp only [Bool.and_eq_true, List.all_eq_true, List.any_eq_true, decide_eq_true_eq] at h
    obtain ⟨h1, c, hc, hk⟩ := h
    refine ⟨⟨by unfold SafeName; decide, (by intro t ht; cases ht), ?_⟩, demoInit.addOperation "Surface 3D".toList (cs.map .motion), ?_, c, ?_, hk⟩
    · intro cs' hg c hc
      change surface3d hillEngine idleKernel hillArgs (-1, 0) (some (1, 0)) [hillFace] demoInit = .ok cs' at hg
      rw [hr] at hg
      cases hg
      exact plainMove_ok (h1 c hc)
    · have hgen : (surface3dRequest hillEngine idleKernel hillArgs (-1, 0) (some (1, 0)) [hillFace]).gen
          (demoInit.updateTool none).2 = .ok cs := hr
      have htool : (surface3dRequest hillEngine idleKernel hillArgs (-1, 0) (some (1, 0)) [hillFace]).tool = none := rfl
      simp only [Job.call, htool, hgen]
      rfl
    · have : (demoInit.addOperation "Surface 3D".toList (cs.map .motion)).allCommands = cs.map .motion := by
        simp [Job.allCommands, Job.addOperation, show demoInit.operations = [] from rfl]
      rw [this, motionsOf_map]
      exact hc

end CQ
