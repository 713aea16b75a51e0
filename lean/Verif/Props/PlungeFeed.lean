import Verif.Spec.Library
import Verif.Props.PocketRun
import Verif.Props.ProfileRun

/-! # C23, C112: the feed of plunges and of cuts -/

namespace CQ

/-! ### C23 -/

/-- A feed move straight down. -/
def goesDown (e : Event) : Bool :=
  match e.act with
  | .move .linear tgt _ => match e.st.pos.z, tgt.z with
      | some a, some b => decide (tgt.x = e.st.pos.x) && decide (tgt.y = e.st.pos.y) && decide (b < a)
      | _, _ => false
  | _ => false

theorem feedRequest_feeds {r : Request} (hr : FeedRequest r) {j : Job} {cs : List Motion} (h : r.gen j = .ok cs) :
    ∀ c ∈ cs, c.kind.mot ≠ .rapid → c.feed = some j.feed ∨ c.feed = some j.plungeFeed := by
  have of : (∀ c ∈ cs, c.kind.mot ≠ .rapid → FeedOf j c) →
      ∀ c ∈ cs, c.kind.mot ≠ .rapid → c.feed = some j.feed ∨ c.feed = some j.plungeFeed := fun h c hc hk => by
    rcases h c hc hk with ⟨-, h⟩ | ⟨-, h⟩
    · exact .inl h
    · exact .inr h
  cases hr with
  | pocket => exact of (C60_pocket h)
  | profile => exact of (C60_profile h)
  | wireProfile => exact of (C60_wire_profile h)
  | drill => exact fun c hc hk => .inl (C60_drill h c hc hk).2

/-- The feeds of a job, and of all its moves, are the feed `f`. -/
def AllFeeds (f : PyNum) (j : Job) : Prop :=
  j.feed = f ∧ j.plungeFeed = f ∧ ∀ c ∈ motionsOf j.allCommands, c.kind.mot ≠ .rapid → c.feed = some f

theorem allCommands_add (j : Job) (n : Text) (cs : List Command) :
    (j.addOperation n cs).allCommands = j.allCommands ++ cs := by
  simp [Job.allCommands, Job.addOperation]

theorem allFeeds_updateTool {f : PyNum} {j : Job} (h : AllFeeds f j) {t : Option Tool} (ht : ∀ u, t = some u → u.feed = none) :
    AllFeeds f (j.updateTool t).2 := by
  obtain ⟨h1, h2, h3⟩ := h
  cases t with
  | none => exact ⟨h1, h2, h3⟩
  | some t =>
    have hf := ht t rfl
    rcases updateTool_some j t with ⟨-, e⟩ | ⟨-, -, e⟩ | ⟨-, -, e⟩ <;> rw [e] <;>
      refine ⟨by simp [Job.withSettings, Settings.inherit, hf, Job.settings, h1], h2, ?_⟩
    · intro c hc
      rw [show ((j.addOperation _ _).withSettings _).allCommands = (j.addOperation _ _).allCommands from rfl, allCommands_add,
        motionsOf_append] at hc
      simp only [motionsOf, List.append_nil] at hc
      exact h3 c hc
    · intro c hc
      rw [show ((j.addOperation _ _).withSettings _).allCommands = (j.addOperation _ _).allCommands from rfl, allCommands_add,
        motionsOf_append] at hc
      simp only [motionsOf, List.append_nil] at hc
      exact h3 c hc
    · exact h3

theorem allFeeds_reach {j0 j : Job} (h0 : j0.operations = []) (hp : j0.plungeFeed = j0.feed)
    (h : ReachWith (fun r => FeedRequest r ∧ ∀ t, r.tool = some t → t.feed = none) j0 j) : AllFeeds j0.feed j := by
  induction h with
  | init => exact ⟨rfl, hp, by simp [Job.allCommands, h0, motionsOf]⟩
  | @result j j' r _ hr _ e ih =>
    obtain ⟨-, cs, hg, rfl⟩ := call_ok e
    obtain ⟨g1, g2, g3⟩ := allFeeds_updateTool ih hr.2
    refine ⟨g1, g2, fun c hc hk => ?_⟩
    rw [allCommands_add, motionsOf_append, motionsOf_map] at hc
    rcases List.mem_append.mp hc with hc | hc
    · exact g3 c hc hk
    · rcases feedRequest_feeds hr.1 hg c hc hk with h | h
      · rw [h, g1]
      · rw [h, g2]
  | @receiver j r _ hr _ ih =>
    have : (j.call r).1 = j ∨ (j.call r).1 = (j.updateTool r.tool).1 := by
      unfold Job.call
      split
      · exact .inl rfl
      · dsimp only
        split <;> exact .inr rfl
    rcases this with e | e
    · rw [e]; exact ih
    · rw [e]
      rcases updateTool_receiver j r.tool with e | e <;> rw [e]
      · exact ih
      · exact allFeeds_updateTool ih hr.2

theorem effects_feed_eq {f : PyNum} (cs : List Command) (m : Machine)
    (h : ∀ c ∈ motionsOf cs, c.kind.mot ≠ .rapid → c.feed = some f) :
    ∀ e ∈ (effects m cs).2, isFeedMove e = true → e.st.feed = some f.value := by
  induction cs generalizing m with
  | nil => intro e he; cases he
  | cons c cs ih =>
    intro e he hf
    simp only [effects, List.mem_append] at he
    rcases he with he | he
    · by_cases hc : ∃ x, c = .motion x
      · obtain ⟨x, rfl⟩ := hc
        have hev : ((Command.motion x).effect m).2 = [⟨withFeed m x, .move x.kind.mot (reach x.fin m.pos) (centreOff x)⟩] := rfl
        rw [hev, List.mem_singleton] at he
        subst he
        have hk : x.kind.mot ≠ .rapid := by simpa [isFeedMove] using hf
        simp only
        rw [withFeed_mot, if_neg hk, h x (by simp [motionsOf]) hk]
        rfl
      · push Not at hc
        rw [effect_noMove hc e he] at hf
        cases hf
    · refine ih _ (fun x hx => ?_) e he hf
      refine h x ?_
      by_cases hc : ∃ x, c = .motion x
      · obtain ⟨y, rfl⟩ := hc
        simp [motionsOf, hx]
      · push Not at hc
        rwa [motionsOf_cons_other hc]

/-- C23 on the machine (as far as it holds: see `C23_violated`).  If no plunge feed was given to the constructor and no tool
argument sets a feed, then in the program of every job made of pockets, profiles and drilling, every feed move of the machine,
plunging or not, runs at the feed configured for the job. -/
theorem C23_run_partial {j0 j : Job} (m : Machine) (h0 : InitOK j0) (hn : ∀ v, j0.toolNumber = some v → NumOK v)
    (hp : j0.plungeFeed = j0.feed)
    (h : ReachWith (fun r => FeedRequest r ∧ ∀ t, r.tool = some t → t.feed = none) j0 j) (hend : m.ended = false) :
    ∃ t m' evs, j.toGcode = .ok t ∧ runText m t = some (m', evs) ∧
      ∀ e ∈ evs, isFeedMove e = true → e.st.feed = some j.feed.value := by
  have hok := (inv_reach (inv_init h0 hn) (reachWith_reach h)).ok
  obtain ⟨g1, -, g3⟩ := allFeeds_reach h0.fresh hp h
  obtain ⟨t, ht, hr⟩ := run_job m j hok hend
  refine ⟨t, (j.intended m).1, (j.intended m).2, ht, hr, ?_⟩
  have hmo : motionsOf j.program = motionsOf j.allCommands := by
    unfold Job.program
    rw [motionsOf_append, motionsOf_append]
    simp [motionsOf]
  simp only [Job.intended, List.mem_append, List.mem_singleton]
  rintro e (he | rfl) hf
  · rw [g1]
    exact effects_feed_eq j.program m (by rw [hmo]; exact g3) e he hf
  · cases hf

/-- C23 is false on the machine as well: after a pocket with a tool feed of 90 in a job of feed 500 without a plunge feed, the tool
goes down at 500 and cuts at 90. -/
theorem C23_run_violated : ∃ j2 t m' evs, (twoJob.call (pocketRequest boxEngine exactEq 9 [squareFace] [] {} (some { feed := some (.int 90) }))).2 = .ok j2 ∧
    j2.feed = .int 90 ∧ j2.toGcode = .ok t ∧ runText {} t = some (m', evs) ∧
    ∃ e ∈ evs, goesDown e = true ∧ e.st.feed = some 500 := by
  obtain ⟨j2, t, m', evs, h1, h2, h3, e, he, hb⟩ := run_witness (j := twoJob.withSettings { twoJob.settings with feed := .int 90 })
    (r := squarePocket) (bad := fun e => goesDown e && decide (e.st.feed = some 500)) ⟨rfl, by unfold SafeName; decide, numOK_int _, by rintro v ⟨⟩⟩
    (by rintro v ⟨⟩) rfl rfl (by unfold SafeName; decide) (by decide +kernel)
  obtain ⟨-, cs, hg, rfl⟩ := call_ok h1
  exact ⟨_, t, m', evs, h1, rfl, h2, h3, e, he, by simpa using hb⟩

/-! ### C112 -/

theorem contourRequest_feeds {r : Request} (hr : ContourRequest r) {j : Job} {cs : List Motion} (h : r.gen j = .ok cs) :
    ∀ c ∈ cs, c.kind.mot ≠ .rapid → FeedOf j c := by
  cases hr with
  | pocket => exact C60_pocket h
  | profile => exact C60_profile h
  | wireProfile => exact C60_wire_profile h

theorem isFeed_of_mot {k : MKind} (h : k.mot ≠ .rapid) : k.isFeed = true := by cases k <;> first | rfl | exact absurd rfl h

theorem feedOf_event {j : Job} {e : Event} {c : Motion} (h : Performs e c) (hf : c.kind.mot ≠ .rapid → FeedOf j c) :
    (c.kind = .plungeCut → e.st.feed = some j.plungeFeed.value) ∧
      (c.kind.mot ≠ .rapid → c.kind ≠ .plungeCut → e.st.feed = some j.feed.value) := by
  obtain ⟨tgt, ctr, -, -, -, -, -, hfeed⟩ := h
  constructor
  · intro hk
    have hm : c.kind.mot ≠ .rapid := by rw [hk]; decide
    rcases hf hm with ⟨h, -⟩ | ⟨-, h⟩
    · exact absurd hk h
    · exact hfeed (isFeed_of_mot hm) _ h
  · intro hm hk
    rcases hf hm with ⟨-, h⟩ | ⟨h, -⟩
    · exact hfeed (isFeed_of_mot hm) _ h
    · exact absurd h hk

/-- C112 (as far as it holds: see `C112_violated`).  In the program of any job with a pocket or a profile in it, the machine
performs the plunging moves of that operation at the plunge feed given to the constructor, and its other feed moves at the
feed configured for the operation. -/
theorem C112_feeds_partial {j0 j1 j2 jf : Job} {before after : List Request} {r : Request} (hr : ContourRequest r) (m : Machine)
    (h0 : InitOK j0) (hn : ∀ v, j0.toolNumber = some v → NumOK v) (hok : ChainOK j0 (before ++ r :: after))
    (h1 : j0.chain before = .ok j1) (h2 : (j1.call r).2 = .ok j2) (h3 : j2.chain after = .ok jf)
    (hend : m.ended = false) (htool : ∀ n, j0.toolNumber = some n → m.tool = some n.value) :
    ∃ t m' pre part post cs, jf.toGcode = .ok t ∧ runText m t = some (m', pre ++ part ++ post) ∧
      r.gen (j1.updateTool r.tool).2 = .ok cs ∧
      List.Forall₂ (fun e c => Performs e c ∧ (c.kind = .plungeCut → e.st.feed = some j0.plungeFeed.value) ∧
        (c.kind.mot ≠ .rapid → c.kind ≠ .plungeCut → e.st.feed = some (j1.settings.inherit r.tool).feed.value))
        (part.filter isMove) cs := by
  obtain ⟨t, m', pre, part, post, cs, e1, e2, hcs, hp, -, -⟩ := C94_followed m h0 hn hok h1 h2 h3 hend htool
  have hb : SameBase j0 (j1.updateTool r.tool).2 := updateTool_base (chain_base (by unfold SameBase; rfl) h1) _
  have hset : (j1.updateTool r.tool).2.settings = j1.settings.inherit r.tool := by
    obtain ⟨-, -, -, h, -⟩ := updateTool_commands j1 r.tool
    exact h
  have hpf : (j1.updateTool r.tool).2.plungeFeed = j0.plungeFeed := by rw [hb]
  have hfe : (j1.updateTool r.tool).2.feed = (j1.settings.inherit r.tool).feed := by rw [← hset]; rfl
  refine ⟨t, m', pre, part, post, cs, e1, e2, hcs, (forall₂_imp_mem hp.flip (S := fun c e => _) (fun c hc e hec => ?_)).flip⟩
  have := feedOf_event hec (contourRequest_feeds hr hcs c hc)
  rw [hpf, hfe] at this
  exact ⟨hec, this⟩

/-- A plunge of the library is a straight move down of the machine. -/
theorem vertically_of_follows {e : Event} {c : Motion} (h : FollowsMove e c) (hl : ¬ Lateral c) : Vertically e := by
  obtain ⟨⟨tgt, ctr, hact, hx, hy, -⟩, ax, ay, -⟩ := h
  unfold Lateral at hl
  push Not at hl
  refine ⟨_, tgt, ctr, hact, ?_, ?_⟩
  · cases hv : c.fin.x with
    | none => exact hx.2 hv
    | some v => rw [hx.1 v hv, ax v (hl.1.trans hv)]
  · cases hv : c.fin.y with
    | none => exact hy.2 hv
    | some v => rw [hy.1 v hv, ay v (hl.2.trans hv)]

theorem pocket_feedMoves {eng : Clipper} {veq : Vec → Vec → Bool} {fuel : ℕ} {opAreas avoidAreas : List CqFace}
    {a : PocketArgs} {j : Job} {cs : List Motion} (h : pocket eng veq fuel opAreas avoidAreas a j = .ok cs) :
    ∀ c ∈ cs, c.kind.mot ≠ .rapid → ∃ z, FeedMove j z c := by
  unfold pocket at h
  cases hr : j.toolRadius with
  | none => rw [hr] at h; cases h
  | some r =>
    rw [hr] at h
    obtain ⟨ops, h1, h⟩ := bind_ok.mp h
    obtain ⟨avoids, h2, h⟩ := bind_ok.mp h
    obtain ⟨-, -, -, g4⟩ := C45_pocket_path h
    intro c hc hk
    obtain ⟨z, hm, -⟩ := g4 c hc hk
    exact ⟨z, hm⟩

/-- C112 for pockets, on the machine alone: a feed move runs at the feed of the operation, or it goes straight down or up and runs
at the plunge feed given to the constructor. -/
theorem C112_pocket_partial {eng : Clipper} {veq : Vec → Vec → Bool} {fuel : ℕ} {opAreas avoidAreas : List CqFace} {a : PocketArgs}
    {tool : Option Tool} {j0 j1 j2 jf : Job} {before after : List Request} (m : Machine) (h0 : InitOK j0)
    (hn : ∀ v, j0.toolNumber = some v → NumOK v)
    (hok : ChainOK j0 (before ++ pocketRequest eng veq fuel opAreas avoidAreas a tool :: after))
    (h1 : j0.chain before = .ok j1) (h2 : (j1.call (pocketRequest eng veq fuel opAreas avoidAreas a tool)).2 = .ok j2)
    (h3 : j2.chain after = .ok jf) (hend : m.ended = false) (htool : ∀ n, j0.toolNumber = some n → m.tool = some n.value) :
    ∃ t m' pre part post, jf.toGcode = .ok t ∧ runText m t = some (m', pre ++ part ++ post) ∧
      ∀ e ∈ part, isFeedMove e = true → e.st.feed = some (j1.settings.inherit tool).feed.value ∨
        (Vertically e ∧ e.st.feed = some j0.plungeFeed.value) := by
  obtain ⟨t, m', pre, part, post, cs, e1, e2, hcs, -, hfol, -⟩ := C94_followed m h0 hn hok h1 h2 h3 hend htool
  have hb : SameBase j0 (j1.updateTool tool).2 := updateTool_base (chain_base (by unfold SameBase; rfl) h1) _
  have hset : (j1.updateTool tool).2.settings = j1.settings.inherit tool := by
    obtain ⟨-, -, -, h, -⟩ := updateTool_commands j1 tool
    exact h
  have hpf : (j1.updateTool tool).2.plungeFeed = j0.plungeFeed := by rw [hb]
  have hfe : (j1.updateTool tool).2.feed = (j1.settings.inherit tool).feed := by rw [← hset]; rfl
  have hcs : pocket eng veq fuel opAreas avoidAreas a (j1.updateTool tool).2 = .ok cs := hcs
  refine ⟨t, m', pre, part, post, e1, e2, fun e he hf => ?_⟩
  obtain ⟨c, hc, hec⟩ := forall₂_mem_right (hfol (tracks_connected (C26_pocket hcs))).flip
    (List.mem_filter.mpr ⟨he, isMove_of_isFeedMove hf⟩)
  have hk : c.kind.mot ≠ .rapid := by
    intro hr
    obtain ⟨⟨tgt, ctr, hact, -⟩, -⟩ := hec
    rw [hr] at hact
    simp [isFeedMove, hact] at hf
  obtain ⟨tgt, ctr, -, -, -, -, -, hfeed⟩ := hec.1
  obtain ⟨z, -, ⟨-, h⟩ | ⟨-, hl, h⟩⟩ := pocket_feedMoves hcs c hc hk
  · exact .inl (by rw [hfeed (isFeed_of_mot hk) _ h, hfe])
  · exact .inr ⟨vertically_of_follows hec hl, by rw [hfeed (isFeed_of_mot hk) _ h, hpf]⟩

/-- C112 for drilling: whatever the plunge feed, the machine goes down into every hole at the feed configured for the operation. -/
theorem C112_drill {center : List Edge → Except Err Vec} {o : Option (List DrillObj)} {depth : Option ℚ}
    {tool : Option Tool} {j0 j1 j2 jf : Job} {before after : List Request} (m : Machine) (h0 : InitOK j0)
    (hn : ∀ v, j0.toolNumber = some v → NumOK v) (hok : ChainOK j0 (before ++ drillRequest center o depth tool :: after))
    (h1 : j0.chain before = .ok j1) (h2 : (j1.call (drillRequest center o depth tool)).2 = .ok j2)
    (h3 : j2.chain after = .ok jf) (hend : m.ended = false) (htool : ∀ n, j0.toolNumber = some n → m.tool = some n.value) :
    ∃ t m' pre part post, jf.toGcode = .ok t ∧ runText m t = some (m', pre ++ part ++ post) ∧
      ∀ e ∈ part, isFeedMove e = true → e.st.feed = some (j1.settings.inherit tool).feed.value := by
  obtain ⟨t, m', pre, part, post, cs, e1, e2, hcs, hp, -, -⟩ := C94_followed m h0 hn hok h1 h2 h3 hend htool
  have hset : (j1.updateTool tool).2.settings = j1.settings.inherit tool := by
    obtain ⟨-, -, -, h, -⟩ := updateTool_commands j1 tool
    exact h
  have hfe : (j1.updateTool tool).2.feed = (j1.settings.inherit tool).feed := by rw [← hset]; rfl
  refine ⟨t, m', pre, part, post, e1, e2, fun e he hf => ?_⟩
  obtain ⟨c, hc, tgt, ctr, hact, -, -, -, -, hfeed⟩ := forall₂_mem_right hp.flip
    (List.mem_filter.mpr ⟨he, isMove_of_isFeedMove hf⟩)
  have hk : c.kind.mot ≠ .rapid := by
    intro hr
    rw [hr] at hact
    simp [isFeedMove, hact] at hf
  rw [hfeed (isFeed_of_mot hk) _ (C60_drill hcs c hc hk).2]
  exact congrArg (fun f : PyNum => some f.value) hfe

/-- A job with a plunge feed of its own. -/
def slowJob : Job := Job.init Frame.xy (.int 500) (plungeFeed := some (.int 100)) (toolDiameter := some 2)

theorem slowJob_ok : InitOK slowJob := ⟨rfl, by unfold SafeName; decide, numOK_int _, by rintro v ⟨⟩⟩

/-- C112 is false: with a plunge feed of 100, drilling goes down at the feed of 500. -/
theorem C112_violated : ∃ j2 t m' evs, (slowJob.call (demoDrill none)).2 = .ok j2 ∧ j2.toGcode = .ok t ∧
    runText {} t = some (m', evs) ∧ slowJob.plungeFeed.value = 100 ∧ ∃ e ∈ evs, goesDown e = true ∧ e.st.feed = some 500 := by
  obtain ⟨j2, t, m', evs, h1, h2, h3, e, he, hb⟩ := run_witness (j := slowJob) (r := demoDrill none)
    (bad := fun e => goesDown e && decide (e.st.feed = some 500)) slowJob_ok (by rintro v ⟨⟩) rfl rfl
    (by unfold SafeName; decide) (by decide +kernel)
  refine ⟨j2, t, m', evs, h1, h2, h3, by decide +kernel, e, he, ?_⟩
  simpa using hb

/-- The hypotheses of `C112_feeds_partial` and `C112_pocket_partial`: a pocket that plunges at 100 and cuts at 500. -/
example : ∃ j2 t m' evs, (slowJob.call squarePocket).2 = .ok j2 ∧ ContourRequest squarePocket ∧ ChainOK slowJob [squarePocket] ∧
    j2.toGcode = .ok t ∧ runText {} t = some (m', evs) ∧ (∃ e ∈ evs, goesDown e = true ∧ e.st.feed = some 100) := by
  obtain ⟨j2, t, m', evs, h1, h2, h3, e, he, hb⟩ := run_witness (j := slowJob) (r := squarePocket)
    (bad := fun e => goesDown e && decide (e.st.feed = some 100)) slowJob_ok (by rintro v ⟨⟩) rfl rfl
    (by unfold SafeName; decide) (by decide +kernel)
  obtain ⟨cs, -, hr, hc⟩ := call_good (j := slowJob) (r := squarePocket) rfl rfl (by unfold SafeName; decide) (by decide +kernel)
  exact ⟨j2, t, m', evs, h1, .pocket .., ⟨hr, fun _ _ => trivial⟩, h2, h3, e, he, by simpa using hb⟩

/-- The hypotheses of `C23_run_partial`: the same pocket in a job without a plunge feed. -/
example : twoJob.plungeFeed = twoJob.feed ∧
    ∃ j, ReachWith (fun r => FeedRequest r ∧ ∀ t, r.tool = some t → t.feed = none) twoJob j ∧
      ∃ c ∈ motionsOf j.allCommands, c.kind = .plungeCut := by
  obtain ⟨cs, hg, hr, hc⟩ := squarePocket_call
  refine ⟨rfl, _, .result squarePocket .init ⟨.pocket .., by rintro t ⟨⟩⟩ hr hc, ?_⟩
  have h : (match squarePocket.gen twoJob with
      | .ok cs => cs.any (fun c => c.kind = .plungeCut) | .error _ => false) = true := by decide +kernel
  rw [hg] at h
  obtain ⟨c, hm, hk⟩ := List.any_eq_true.mp h
  exact ⟨c, by rw [allCommands_add, motionsOf_append, motionsOf_map]; exact List.mem_append_right _ hm, by simpa using hk⟩

end CQ
