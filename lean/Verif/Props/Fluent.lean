import Verif.Proofs.Segments
import Verif.Props.Program

/-! # C17-C23, C68, C70, C71: job histories -/

namespace CQ

/-! ### C17 -/

/-- C17.  If the operator has loaded the tool the job was created with, then in the program of any chain of
operation calls the machine holds, at every move of every operation, the tool number configured for that operation
(by its tool argument, or inherited). The program's events are: homing, one segment per call, homing, stop; the
moves of segment `i` are those the `i`-th call generated. -/
theorem C17_right_tool {j0 jf : Job} {rs : List Request} (m : Machine) (h0 : InitOK j0)
    (hn : ∀ v, j0.toolNumber = some v → NumOK v) (hrs : ChainOK j0 rs) (h : j0.chain rs = .ok jf)
    (hend : m.ended = false) (htool : ∀ n, j0.toolNumber = some n → m.tool = some n.value) :
    ∃ t m' e1 e2 e3 evss, jf.toGcode = .ok t ∧ runText m t = some (m', e1 :: (evss.flatten ++ [e2, e3])) ∧
      e1.act = .home ∧ e2.act = .home ∧ e3.act = .stop ∧
      List.Forall₂ (fun evs mv => List.Forall₂ Performs (evs.filter isMove) mv) evss (chainMoves j0 rs) ∧
      List.Forall₂ (fun evs (s : Settings) => ∀ e ∈ evs, isMove e = true → ∀ n, s.toolNumber = some n →
        e.st.tool = some n.value) evss (requestSettings j0.settings rs) := by
  obtain ⟨t, m', e1, e2, e3, evss, a1, a2, a3, a4, a5, a6, a7, -, -, -⟩ := chain_program m h0 hn hrs h hend htool
  exact ⟨t, m', e1, e2, e3, evss, a1, a2, a3, a4, a5, a6, a7⟩

/-- A chain of two calls with a tool change meets the hypotheses. -/
example : ∃ jf, demoInit.chain [demoRequest (some { toolNumber := some (.int 2) }),
    demoRequest (some { toolNumber := some (.int 2) })] = .ok jf ∧
    requestSettings demoInit.settings [demoRequest (some { toolNumber := some (.int 2) }), demoRequest none] =
      [⟨some (.int 2), none, .int 500, some (.int 12000)⟩, ⟨some (.int 2), none, .int 500, some (.int 12000)⟩] :=
  ⟨_, rfl, rfl⟩

/-! ### C18 -/

/-- C18 (as far as it holds).  At every move of an operation the programmed spindle speed is the configured one,
provided that the tool number or the speed was changed for this or an earlier operation, or that the job's final
speed is the operation's speed.  Missing: the operations before the first change, which run at the final job's
speed - see `C18_violated`. -/
theorem C18_speed_partial {j0 jf : Job} {rs : List Request} (m : Machine) (h0 : InitOK j0)
    (hn : ∀ v, j0.toolNumber = some v → NumOK v) (hrs : ChainOK j0 rs) (h : j0.chain rs = .ok jf)
    (hend : m.ended = false) (htool : ∀ n, j0.toolNumber = some n → m.tool = some n.value) :
    ∃ t m' e1 e2 e3 evss, jf.toGcode = .ok t ∧ runText m t = some (m', e1 :: (evss.flatten ++ [e2, e3])) ∧
      e1.act = .home ∧ e2.act = .home ∧ e3.act = .stop ∧
      List.Forall₂ (fun evs mv => List.Forall₂ Performs (evs.filter isMove) mv) evss (chainMoves j0 rs) ∧
      List.Forall₂ (fun evs (s : Settings × Prop) => s.2 ∨ SameNum jf.speed s.1.speed → ∀ e ∈ evs, isMove e = true →
        ∀ v, s.1.speed = some v → e.st.speed = some v.value) evss
        (changeHistory ToolOrSpeedChanged j0.settings False rs) := by
  obtain ⟨t, m', e1, e2, e3, evss, a1, a2, a3, a4, a5, a6, -, a8, -, -⟩ := chain_program m h0 hn hrs h hend htool
  exact ⟨t, m', e1, e2, e3, evss, a1, a2, a3, a4, a5, a6, a8⟩

/-- The chain of `C18_violated`: first operation at the job's speed 1000, second with speed 2000. -/
def speedChain : List Request := [demoRequest none, demoRequest (some { speed := some (.int 2000) })]

theorem demoRequest_gen (j : Job) (tool : Option Tool) (ht : ∀ t, tool = some t → ToolOK t) :
    RequestOK j (demoRequest tool) := ⟨(demoRequest_ok j).name, ht, fun cs h => (demoRequest_ok j).gen cs h⟩

/-- C18 is false: the first operation is configured for speed 1000 but its cut runs at 2000, because the program
header takes the speed from the final job. -/
theorem C18_violated : ∃ (j0 jf : Job) (rs : List Request) (s1 s2 : Settings) (mv1 mv2 : List Motion) (t : Text)
    (r : Machine × List Event), InitOK j0 ∧ ChainOK j0 rs ∧ j0.chain rs = .ok jf ∧
      requestSettings j0.settings rs = [s1, s2] ∧ s1.speed = some (.int 1000) ∧ chainMoves j0 rs = [mv1, mv2] ∧
      (∃ c ∈ mv1, c.kind.mot = .linear) ∧ jf.toGcode = .ok t ∧ runText {} t = some r ∧
      ∃ e, r.2.find? isFeedMove = some e ∧ e.st.speed = some 2000 := by
  let j0 : Job := Job.init Frame.xy (.int 500) (speed := some (.int 1000))
  have hi : InitOK j0 := ⟨rfl, by unfold SafeName; decide, numOK_int _, by rintro v ⟨⟩; exact numOK_int _⟩
  have hrs : ChainOK j0 speedChain := by
    refine chainOK_of ?_ _
    intro r hr j
    simp only [speedChain, List.mem_cons, List.not_mem_nil, or_false] at hr
    rcases hr with rfl | rfl
    · exact demoRequest_gen _ _ (by rintro t ⟨⟩)
    · refine demoRequest_gen _ _ ?_
      rintro t ⟨⟩
      exact ⟨by rintro v ⟨⟩, by rintro v ⟨⟩, by rintro v ⟨⟩; exact numOK_int _⟩
  have hch : ∃ jf, j0.chain speedChain = .ok jf := ⟨_, rfl⟩
  obtain ⟨jf, hjf⟩ := hch
  have hI := inv_reach (inv_init hi (by rintro v ⟨⟩)) (reach_chain .init hrs hjf)
  obtain ⟨t, ht, hr⟩ := run_job {} jf hI.ok rfl
  refine ⟨j0, jf, speedChain, _, _, _, _, t, _, hi, hrs, hjf, rfl, rfl, rfl, ⟨cutAbs { z := some (-1) } (some ⟨some 1, some 2, some 10⟩) (some (.int 500)), ?_, ?_⟩, ht, hr, ?_⟩
  · simp
  · rfl
  · cases hjf
    exact ⟨_, rfl, rfl⟩

/-! ### C19, C21, C22 -/

/-- C19, C21.  An operation call appends to the operations, which stay as they are: a tool change exactly when the
tool argument asks for a tool number other than the current one; otherwise a speed change exactly when it asks for
another speed; and then the new operation.  Both blocks carry the tool number, speed and coolant then in effect. -/
theorem C19_change_blocks {j j' : Job} {r : Request} (h : (j.call r).2 = .ok j') :
    ∃ (pre : List Operation) (cs : List Motion), j'.operations = j.operations ++ pre ++ [⟨j.name, r.opName, cs.map .motion⟩] ∧
      let asksTool := ∃ t n, r.tool = some t ∧ t.toolNumber = some n ∧ ¬ SameNum (some n) j.toolNumber
      let asksSpeed := ∃ t v, r.tool = some t ∧ t.speed = some v ∧ ¬ SameNum (some v) j.speed
      (asksTool → pre = [⟨j.name, "Tool Change".toList,
        [.toolChange j'.toolNumber j'.speed j.coolant]⟩] ∧ j'.toolNumber ≠ none) ∧
      (¬ asksTool → asksSpeed → pre = [⟨j.name, "Speed Change".toList, [.start j'.speed j.coolant]⟩] ∧
        j'.speed ≠ none) ∧
      (¬ asksTool → ¬ asksSpeed → pre = []) := by
  obtain ⟨-, cs, -, rfl⟩ := call_ok h
  cases ht : r.tool with
  | none =>
    refine ⟨[], cs, by simp [Job.updateTool, Job.addOperation], ?_, ?_, ?_⟩
    · rintro ⟨t, n, h1, -⟩; cases h1
    · rintro - ⟨t, n, h1, -⟩; cases h1
    · simp
  | some t =>
    have hT : needsToolChange j (j.settings.inherit (some t)) ↔
        ∃ t' n, some t = some t' ∧ t'.toolNumber = some n ∧ ¬ SameNum (some n) j.toolNumber := by
      constructor
      · rintro ⟨-, h2⟩
        cases hn : t.toolNumber with
        | none => simp [Settings.inherit, hn, Job.settings] at h2
        | some n => exact ⟨t, n, rfl, hn, by simpa [Settings.inherit, hn, SameNum] using h2⟩
      · rintro ⟨t', n, h1, h2, h3⟩
        cases h1
        exact ⟨by simp [Settings.inherit, h2], by simpa [Settings.inherit, h2, SameNum] using h3⟩
    have hS : needsSpeedChange j (j.settings.inherit (some t)) ↔
        ∃ t' n, some t = some t' ∧ t'.speed = some n ∧ ¬ SameNum (some n) j.speed := by
      constructor
      · rintro ⟨-, h2⟩
        cases hn : t.speed with
        | none => simp [Settings.inherit, hn, Job.settings] at h2
        | some n => exact ⟨t, n, rfl, hn, by simpa [Settings.inherit, hn, SameNum] using h2⟩
      · rintro ⟨t', n, h1, h2, h3⟩
        cases h1
        exact ⟨by simp [Settings.inherit, h2], by simpa [Settings.inherit, h2, SameNum] using h3⟩
    simp only [← hT, ← hS]
    rcases updateTool_some j t with ⟨h1, e⟩ | ⟨h1, h2, e⟩ | ⟨h1, h2, e⟩
    · rw [e]
      exact ⟨_, cs, rfl, fun _ => ⟨rfl, h1.1⟩, fun hx => absurd h1 hx, fun hx => absurd h1 hx⟩
    · rw [e]
      exact ⟨_, cs, rfl, fun hx => absurd hx h1, fun _ _ => ⟨rfl, h2.1⟩, fun _ hx => absurd h2 hx⟩
    · rw [e]
      exact ⟨[], cs, by simp [Job.addOperation, Job.withSettings], fun hx => absurd hx h1,
        fun _ hx => absurd hx h2, fun _ _ => rfl⟩

example : ∃ j', (demoInit.call (demoRequest (some { toolNumber := some (.int 2), feed := some (.int 90) }))).2 =
    .ok j' ∧ j'.operations.length = 2 := ⟨_, rfl, rfl⟩

/-- C21.  Operations are append-only over whole chains: the operations of the receiver are a prefix, and every call
adds its own operation, preceded by at most one change block. -/
theorem C21_append_only {j jf : Job} {rs : List Request} (h : j.chain rs = .ok jf) :
    ∃ added, jf.operations = j.operations ++ added ∧
      List.Sublist (rs.map Request.opName) (added.map Operation.name) ∧
      rs.length ≤ added.length ∧ added.length ≤ 2 * rs.length := by
  induction rs generalizing j with
  | nil => cases h; exact ⟨[], by simp, by simp, by simp, by simp⟩
  | cons r rs ih =>
    obtain ⟨j', hj', hch⟩ := chain_cons_ok h
    obtain ⟨added, h1, h2, h3, h4⟩ := ih hch
    obtain ⟨pre, cs, g1, g2, g3, g4⟩ := C19_change_blocks hj'
    have hlen : pre.length ≤ 1 := by
      by_cases a : ∃ t n, r.tool = some t ∧ t.toolNumber = some n ∧ ¬ SameNum (some n) j.toolNumber
      · rw [(g2 a).1]; simp
      · by_cases b : ∃ t n, r.tool = some t ∧ t.speed = some n ∧ ¬ SameNum (some n) j.speed
        · rw [(g3 a b).1]; simp
        · rw [g4 a b]; simp
    refine ⟨pre ++ [⟨j.name, r.opName, cs.map .motion⟩] ++ added, ?_, ?_, ?_, ?_⟩
    · rw [h1, g1]; simp
    · simp only [List.map_cons, List.map_append, List.append_assoc, List.cons_append, List.nil_append]
      exact List.Sublist.trans (List.Sublist.cons_cons _ h2) (List.sublist_append_right _ _)
    · simp only [List.length_append, List.length_cons, List.length_nil]; omega
    · simp only [List.length_append, List.length_cons, List.length_nil]; omega

example : ∃ jf, demoInit.chain speedChain = .ok jf ∧ jf.operations.length = 3 := ⟨_, rfl, rfl⟩

/-- C22.  After an operation call each tool field that is given is used and each field left out is inherited; all
other settings are unchanged. -/
theorem C22_inherit {j j' : Job} {r : Request} (h : (j.call r).2 = .ok j') :
    (∀ t n, r.tool = some t → t.toolNumber = some n → j'.toolNumber = some n) ∧
      (∀ t d, r.tool = some t → t.toolDiameter = some d → j'.toolDiameter = some d) ∧
      (∀ t f, r.tool = some t → t.feed = some f → j'.feed = f) ∧
      (∀ t v, r.tool = some t → t.speed = some v → j'.speed = some v) ∧
      ((∀ t, r.tool = some t → t.toolNumber = none) → j'.toolNumber = j.toolNumber) ∧
      ((∀ t, r.tool = some t → t.toolDiameter = none) → j'.toolDiameter = j.toolDiameter) ∧
      ((∀ t, r.tool = some t → t.feed = none) → j'.feed = j.feed) ∧
      ((∀ t, r.tool = some t → t.speed = none) → j'.speed = j.speed) ∧
      j' = { j with toolNumber := j'.toolNumber, toolDiameter := j'.toolDiameter, feed := j'.feed
                    speed := j'.speed, operations := j'.operations } := by
  obtain ⟨-, cs, -, rfl⟩ := call_ok h
  have hset : (j.updateTool r.tool).2.settings = j.settings.inherit r.tool := (updateTool_commands j r.tool).choose_spec.2.2.1
  have hfr : (j.updateTool r.tool).2 = { j with
      toolNumber := (j.updateTool r.tool).2.toolNumber, toolDiameter := (j.updateTool r.tool).2.toolDiameter
      feed := (j.updateTool r.tool).2.feed, speed := (j.updateTool r.tool).2.speed
      operations := (j.updateTool r.tool).2.operations } := by
    cases ht : r.tool with
    | none => rfl
    | some t => rcases updateTool_some j t with ⟨-, e⟩ | ⟨-, -, e⟩ | ⟨-, -, e⟩ <;> rw [e] <;> rfl
  have e1 : (j.updateTool r.tool).2.toolNumber = (j.settings.inherit r.tool).toolNumber := congrArg Settings.toolNumber hset
  have e2 : (j.updateTool r.tool).2.toolDiameter = (j.settings.inherit r.tool).toolDiameter := congrArg Settings.toolDiameter hset
  have e3 : (j.updateTool r.tool).2.feed = (j.settings.inherit r.tool).feed := congrArg Settings.feed hset
  have e4 : (j.updateTool r.tool).2.speed = (j.settings.inherit r.tool).speed := congrArg Settings.speed hset
  have f : ∀ (j : Job) n c, (j.addOperation n c).toolNumber = j.toolNumber ∧ (j.addOperation n c).toolDiameter = j.toolDiameter ∧
    (j.addOperation n c).feed = j.feed ∧ (j.addOperation n c).speed = j.speed := fun _ _ _ => ⟨rfl, rfl, rfl, rfl⟩
  simp only [f, e1, e2, e3, e4]
  refine ⟨?_, ?_, ?_, ?_, ?_, ?_, ?_, ?_, ?_⟩
  · intro t n h1 h2; simp [h1, Settings.inherit, h2]
  · intro t n h1 h2; simp [h1, Settings.inherit, h2]
  · intro t n h1 h2; simp [h1, Settings.inherit, h2]
  · intro t n h1 h2; simp [h1, Settings.inherit, h2]
  · intro h1; cases ht : r.tool with
    | none => rfl
    | some t => simp [Settings.inherit, h1 t ht]; rfl
  · intro h1; cases ht : r.tool with
    | none => rfl
    | some t => simp [Settings.inherit, h1 t ht]; rfl
  · intro h1; cases ht : r.tool with
    | none => rfl
    | some t => simp [Settings.inherit, h1 t ht]; rfl
  · intro h1; cases ht : r.tool with
    | none => rfl
    | some t => simp [Settings.inherit, h1 t ht]; rfl
  · rw [← e1, ← e2, ← e3, ← e4]
    generalize (j.updateTool r.tool).2 = u at hfr
    rcases j with ⟨⟩
    rcases u with ⟨⟩
    simp only [Job.mk.injEq, and_true, true_and] at hfr
    simp only [Job.addOperation, Job.mk.injEq, and_true, true_and]
    exact hfr

example : ∃ j', (demoInit.call (demoRequest (some { feed := some (.int 90) }))).2 = .ok j' ∧
    j'.feed = .int 90 ∧ j'.speed = some (.int 12000) := ⟨_, rfl, rfl, rfl⟩

/-! ### C20 -/

/-- C20 (as far as it holds).  A call never changes the receiver's operations or any setting besides tool number,
tool diameter, feed and speed, and it leaves the receiver entirely as it was if it has no tool argument or inserts a
change block.  Missing: a call with a tool argument that needs no change block writes the tool's values into the
receiver - see `C20_violated`. -/
theorem C20_receiver_partial (j : Job) (r : Request) :
    (j.call r).1.operations = j.operations ∧
      (j.call r).1 = { j with toolNumber := (j.call r).1.toolNumber, toolDiameter := (j.call r).1.toolDiameter
                              feed := (j.call r).1.feed, speed := (j.call r).1.speed } ∧
      (r.tool = none → (j.call r).1 = j) ∧
      (∀ t n, r.tool = some t → t.toolNumber = some n → ¬ SameNum (some n) j.toolNumber → (j.call r).1 = j) ∧
      (∀ t v, r.tool = some t → t.speed = some v → ¬ SameNum (some v) j.speed → (j.call r).1 = j) := by
  have hrec : (j.call r).1 = j ∨ (j.call r).1 = (j.updateTool r.tool).1 := by
    unfold Job.call
    split
    · exact Or.inl rfl
    · dsimp only; split <;> exact Or.inr rfl
  rcases hrec with e | e
  · simp [e]
  · cases ht : r.tool with
    | none => rw [ht] at e; simp [e, Job.updateTool]
    | some t =>
      rw [ht] at e
      rcases updateTool_some j t with ⟨-, e2⟩ | ⟨-, -, e2⟩ | ⟨h1, h2, e2⟩
      · simp [e, e2]
      · simp [e, e2]
      · rw [e, e2]
        refine ⟨rfl, rfl, by simp, ?_, ?_⟩
        · intro t' n h3 h4 h5
          cases h3
          exact absurd (⟨by simp [Settings.inherit, h4], by simpa [Settings.inherit, h4, SameNum] using h5⟩ :
            needsToolChange j _) h1
        · intro t' n h3 h4 h5
          cases h3
          exact absurd (⟨by simp [Settings.inherit, h4], by simpa [Settings.inherit, h4, SameNum] using h5⟩ :
            needsSpeedChange j _) h2

/-- C20 is false: calling an operation with only a feed (or diameter) in the tool argument changes the receiver. -/
theorem C20_violated : ∃ (j : Job) (r : Request), RequestOK j r ∧ (j.call r).1 ≠ j ∧ (j.call r).1.feed = .int 90 ∧
    j.feed = .int 500 := by
  refine ⟨demoInit, demoRequest (some { feed := some (.int 90) }), demoRequest_gen _ _ ?_, ?_, rfl, rfl⟩
  · rintro t ⟨⟩
    exact ⟨by rintro v ⟨⟩, by rintro v ⟨⟩; exact numOK_int _, by rintro v ⟨⟩⟩
  · intro he
    have := congrArg Job.feed he
    exact absurd this (by decide)

/-! ### C23 -/

/-- C23 (as far as it holds).  If no plunge feed was given to the constructor and no tool argument of the chain
sets a feed, the plunge feed each operation finds is the feed configured for it. -/
theorem C23_plunge_feed_partial {j jf : Job} {rs : List Request} (h0 : j.plungeFeed = j.feed)
    (hrs : ∀ r ∈ rs, ∀ t, r.tool = some t → t.feed = none) (h : j.chain rs = .ok jf) : jf.plungeFeed = jf.feed := by
  induction rs generalizing j with
  | nil => cases h; exact h0
  | cons r rs ih =>
    obtain ⟨j', hj', hch⟩ := chain_cons_ok h
    refine ih ?_ (fun r hr => hrs r (by simp [hr])) hch
    obtain ⟨-, -, -, -, -, -, g, -, f⟩ := C22_inherit hj'
    rw [g (hrs r (by simp)), ← h0]
    rw [f]

/-- C23 is false: a tool feed does not carry over to the plunge feed, whatever the tool says. -/
theorem C23_violated (top : Frame) (f f' : PyNum) (hne : f' ≠ f) :
    ∃ (r : Request) (j' : Job), ((Job.init top f).call r).2 = .ok j' ∧ j'.feed = f' ∧ j'.plungeFeed = f ∧
      j'.plungeFeed ≠ j'.feed := by
  refine ⟨demoRequest (some { feed := some f' }), _, rfl, rfl, rfl, ?_⟩
  exact fun h => hne h.symm

/-! ### C68 -/

/-- C68.  Heights not given follow the unit: 10 and 1 for millimetres, 0.4 and 0.04 for inches; rapid height above
safe height above the stock.  Given values, including 0, are used as they are. -/
theorem C68_default_heights (top : Frame) (feed : PyNum) (speed : Option PyNum) (td : Option ℚ) (tn : Option PyNum)
    (name : Text) (pf : Option PyNum) (rh sh : Option ℚ) (prec : ℕ) (u : JUnit) (pl : WorkPlane) (co : WorkOffset)
    (d : DistMode) (ad : ArcMode) (cm : PlannerMode) (cool : Option Coolant) :
    let j := Job.init top feed speed td tn name pf rh sh prec u pl co d ad cm cool
    (∀ h, rh = some h → j.rapidHeight = h) ∧ (∀ h, sh = some h → j.opSafeHeight = h) ∧
      (rh = none → u = .metric → j.rapidHeight = 10) ∧ (rh = none → u = .imperial → j.rapidHeight = 4 / 10) ∧
      (sh = none → u = .metric → j.opSafeHeight = 1) ∧ (sh = none → u = .imperial → j.opSafeHeight = 4 / 100) ∧
      (rh = none → sh = none → 0 < j.opSafeHeight ∧ j.opSafeHeight < j.rapidHeight) ∧
      (∀ f, pf = some f → j.plungeFeed = f) ∧ (pf = none → j.plungeFeed = feed) ∧
      j.feed = feed ∧ j.speed = speed ∧ j.toolDiameter = td ∧ j.toolNumber = tn ∧ j.operations = [] := by
  intro j
  refine ⟨?_, ?_, ?_, ?_, ?_, ?_, ?_, ?_, ?_, rfl, rfl, rfl, rfl, rfl⟩
  · rintro h rfl; rfl
  · rintro h rfl; rfl
  · rintro rfl rfl; rfl
  · rintro rfl rfl; rfl
  · rintro rfl rfl; rfl
  · rintro rfl rfl; rfl
  · rintro rfl rfl
    cases u <;> simp only [j, Job.init, defaultOpSafeHeight, defaultRapidHeight] <;> norm_num
  · rintro h rfl; rfl
  · rintro rfl; rfl

/-! ### C70 -/

/-- No program ever selects an arc mode: at every move the machine's arc mode is the one it had before the program. -/
theorem C70_arc_mode_inherited {j0 j : Job} (m : Machine) (h0 : InitOK j0) (hn : ∀ v, j0.toolNumber = some v → NumOK v)
    (h : Reach j0 j) (hend : m.ended = false) :
    ∃ t m' evs, j.toGcode = .ok t ∧ runText m t = some (m', evs) ∧
      ∀ e ∈ evs, isMove e = true → e.st.arcInc = m.arcInc := by
  obtain ⟨t, m', evs, s, h1, h2, h3, -⟩ := program_run m h0 hn h hend
  exact ⟨t, m', evs, h1, h2, fun e he hm => (h3 e he hm).arc⟩

/-- C70 (as far as it holds): on a machine that is in incremental arc mode (the usual default), all arcs are executed
in incremental arc mode. -/
theorem C70_arc_mode_partial {j0 j : Job} (m : Machine) (h0 : InitOK j0)
    (hn : ∀ v, j0.toolNumber = some v → NumOK v) (h : Reach j0 j) (hend : m.ended = false) (hm : m.arcInc = true) :
    ∃ t m' evs, j.toGcode = .ok t ∧ runText m t = some (m', evs) ∧
      ∀ e ∈ evs, isMove e = true → e.st.arcInc = true := by
  obtain ⟨t, m', evs, h1, h2, h3⟩ := C70_arc_mode_inherited m h0 hn h hend
  exact ⟨t, m', evs, h1, h2, fun e he h => (h3 e he h).trans hm⟩

/-- A request generating one clockwise half circle. -/
def arcRequest : Request :=
  { opName := "Profile".toList, tool := none, gen := fun _ => .ok [rapidAbs ⟨some 0, some 0, some 10⟩ none,
      { kind := .cw, start := ⟨some 0, some 0, some 10⟩, fin := ⟨some 2, some 0, some 10⟩, feed := some (.int 500)
        center := ⟨some 1, some 0, some 10⟩ }] }

theorem arcRequest_ok (j : Job) : RequestOK j arcRequest := by
  refine ⟨by unfold SafeName arcRequest; decide, by rintro t ⟨⟩, ?_⟩
  intro cs hcs c hc
  have i0 : DoubleLike 0 := by simpa using doubleLike_int 0
  have i1 : DoubleLike 1 := by simpa using doubleLike_int 1
  have i2 : DoubleLike 2 := by simpa using doubleLike_int 2
  have i10 : DoubleLike 10 := by simpa using doubleLike_int 10
  simp only [arcRequest, Except.ok.injEq] at hcs
  subst hcs
  simp only [List.mem_cons, List.not_mem_nil, or_false] at hc
  rcases hc with rfl | rfl
  · refine ⟨⟨?_, ?_, ?_⟩, ?_, ?_, ?_⟩ <;> simp [rapidAbs, fillEnd, MKind.isArc, i0, i10]
  · refine ⟨⟨?_, ?_, ?_⟩, ?_, ?_, ?_⟩ <;>
      simp [MKind.isArc, i0, i1, i2, i10, numOK_int, ArcAxisOK]

/-- C70 is false: a machine left in absolute arc mode executes the half circle from X0 to X2 around X1 in absolute
arc mode, although its I word is the centre relative to the start. -/
theorem C70_violated : ∃ (jf : Job) (t : Text) (r : Machine × List Event),
    RequestOK demoInit arcRequest ∧ demoInit.chain [arcRequest] = .ok jf ∧ jf.toGcode = .ok t ∧
      runText { arcInc := false } t = some r ∧ ∃ e, r.2.find? isFeedMove = some e ∧ e.st.arcInc = false ∧
        ∃ tgt off, e.act = .move .cw tgt off ∧ off.x = some (rnd 3 1) := by
  have hrs : ChainOK demoInit [arcRequest] := by
    refine chainOK_of ?_ _
    intro r hr j
    rw [List.mem_singleton] at hr
    subst hr
    exact arcRequest_ok j
  obtain ⟨jf, hjf⟩ : ∃ jf, demoInit.chain [arcRequest] = .ok jf := ⟨_, rfl⟩
  have hI := inv_reach (inv_init demo_reach.1 demo_reach.2.1) (reach_chain .init hrs hjf)
  obtain ⟨t, ht, hr⟩ := run_job { arcInc := false } jf hI.ok rfl
  refine ⟨jf, t, _, arcRequest_ok _, hjf, ht, hr, ?_⟩
  cases hjf
  refine ⟨_, rfl, rfl, _, _, rfl, ?_⟩
  show some (rnd 3 (1 - 0)) = _
  norm_num

/-! ### C71 -/

/-- C71 (as far as it holds).  From the first tool change on, the length offset of the tool in use is active at
every move.  Before it no length offset is active at all: the job's initial tool is used without its offset, so C71
is violated for every operation before the first tool change. -/
theorem C71_length_offset_partial {j0 jf : Job} {rs : List Request} (m : Machine) (h0 : InitOK j0)
    (hn : ∀ v, j0.toolNumber = some v → NumOK v) (hrs : ChainOK j0 rs) (h : j0.chain rs = .ok jf)
    (hend : m.ended = false) (htool : ∀ n, j0.toolNumber = some n → m.tool = some n.value) :
    ∃ t m' e1 e2 e3 evss, jf.toGcode = .ok t ∧ runText m t = some (m', e1 :: (evss.flatten ++ [e2, e3])) ∧
      e1.act = .home ∧ e2.act = .home ∧ e3.act = .stop ∧
      List.Forall₂ (fun evs mv => List.Forall₂ Performs (evs.filter isMove) mv) evss (chainMoves j0 rs) ∧
      List.Forall₂ (fun evs (s : Settings × Prop) => ∀ e ∈ evs, isMove e = true →
        (s.2 → ∀ n, s.1.toolNumber = some n → e.st.lenOff = some n.value) ∧ (¬ s.2 → e.st.lenOff = none)) evss
        (changeHistory ToolChanged j0.settings False rs) := by
  obtain ⟨t, m', e1, e2, e3, evss, a1, a2, a3, a4, a5, a6, -, -, a9, -⟩ := chain_program m h0 hn hrs h hend htool
  exact ⟨t, m', e1, e2, e3, evss, a1, a2, a3, a4, a5, a6, a9⟩

/-- C71 is false: the first operation, with the job's own tool 1 in the spindle, runs without a length offset. -/
theorem C71_violated : ∃ (jf : Job) (t : Text) (r : Machine × List Event),
    demoInit.chain [demoRequest none] = .ok jf ∧ jf.toolNumber = some (.int 1) ∧ jf.toGcode = .ok t ∧
      runText { tool := some 1 } t = some r ∧ ∃ e ∈ r.2, isMove e = true ∧ e.st.tool = some 1 ∧ e.st.lenOff = none := by
  have hrs : ChainOK demoInit [demoRequest none] := by
    refine chainOK_of ?_ _
    intro r hr j
    rw [List.mem_singleton] at hr
    subst hr
    exact demoRequest_gen _ _ (by rintro t ⟨⟩)
  obtain ⟨jf, hjf⟩ : ∃ jf, demoInit.chain [demoRequest none] = .ok jf := ⟨_, rfl⟩
  have hI := inv_reach (inv_init demo_reach.1 demo_reach.2.1) (reach_chain .init hrs hjf)
  obtain ⟨t, ht, hr⟩ := run_job { tool := some 1 } jf hI.ok rfl
  refine ⟨jf, t, _, hjf, ?_, ht, hr, ?_⟩
  · cases hjf; rfl
  · cases hjf
    exact ⟨_, List.mem_cons_of_mem _ (List.mem_cons_self ..), rfl, rfl, rfl⟩

/-- C34, the radius the offsets are multiples of: half the tool diameter of the job; without a tool diameter (or with
diameter 0) there is none. -/
theorem C34_tool_radius (j : Job) :
    (∀ d, j.toolDiameter = some d → d ≠ 0 → ∃ r, j.toolRadius = some r ∧ r + r = d) ∧
      (j.toolDiameter = none → j.toolRadius = none) ∧ (j.toolDiameter = some 0 → j.toolRadius = none) := by
  refine ⟨?_, ?_, ?_⟩
  · intro d h hd
    exact ⟨d / 2, by simp [Job.toolRadius, h, hd], by ring⟩
  · intro h; simp [Job.toolRadius, h]
  · intro h; simp [Job.toolRadius, h]

end CQ
