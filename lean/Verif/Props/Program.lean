import Verif.Proofs.ProgramRun

/-! # C09-C16: whole programs -/

namespace CQ

/-! ### C09 -/

/-- C09.  The program text is accepted by the reader; the moves it performs are exactly the moves of the job's
operations, in order, with rounded end coordinates and the commands' feeds; apart from moves it only homes in the
header, runs the tool-change blocks, homes in the footer, and stops. -/
theorem C09_program_means_commands (m : Machine) (j : Job) (h : JobOK j) (hend : m.ended = false) :
    ∃ t m' evs, j.toGcode = .ok t ∧ runText m t = some (m', evs) ∧
      List.Forall₂ Performs (evs.filter isMove) (motionsOf j.allCommands) ∧
      (evs.filter (fun e => !isMove e)).map Event.act = [.home] ++ otherActs j.allCommands ++ [.home, .stop] := by
  obtain ⟨t, ht, hr⟩ := run_job m j h hend
  refine ⟨t, _, _, ht, hr, ?_⟩
  obtain ⟨h1, h2⟩ := effects_moves m j.program
  have e1 : ∀ a b, motionsOf (a ++ b) = motionsOf a ++ motionsOf b := by
    intro a b; induction a with
    | nil => rfl
    | cons c a ih => cases c <;> simp [motionsOf, ih]
  have e2 : ∀ a b, otherActs (a ++ b) = otherActs a ++ otherActs b := by
    intro a b; induction a with
    | nil => rfl
    | cons c a ih => cases c <;> simp [otherActs, ih]
  refine ⟨?_, ?_⟩
  · simp only [List.filter_append]
    have : List.filter isMove [(⟨(effects m j.program).1, .stop⟩ : Event)] = [] := rfl
    rw [this, List.append_nil]
    have e : motionsOf j.program = motionsOf j.allCommands := by
      simp only [Job.program, e1]; simp [motionsOf]
    rw [← e]; exact h1
  · simp only [List.filter_append, List.map_append, h2]
    simp only [Job.program, e2]
    simp [otherActs, isMove]

/-- A job with two operations and a tool change meets the hypotheses of C09. -/
def demoJob : Job :=
  { feed := .int 500, plungeFeed := .int 500, rapidHeight := 10, opSafeHeight := 1, speed := some (.int 12000)
    coolant := some .flood
    operations := [
      ⟨"Job".toList, "Pocket".toList, [.motion (rapidAbs { z := some 10 } none),
        .motion (rapidAbs { x := some 1, y := some 2 } (some { z := some 10 })),
        .motion (cutAbs { z := some (-1) } (some ⟨some 1, some 2, some 10⟩) (some (.int 500)))]⟩,
      ⟨"Job".toList, "Tool Change".toList, [.toolChange (some (.int 2)) (some (.int 12000)) (some .flood)]⟩] }

theorem demoJob_ok : JobOK demoJob := by
  have d : ∀ (e : AddrVec), (∀ q, e.x = some q → ∃ n : ℤ, q = n) → (∀ q, e.y = some q → ∃ n : ℤ, q = n) →
      (∀ q, e.z = some q → ∃ n : ℤ, q = n) → DoubleVec e := fun e h1 h2 h3 =>
    ⟨fun q hq => Or.inr (h1 q hq), fun q hq => Or.inr (h2 q hq), fun q hq => Or.inr (h3 q hq)⟩
  have i1 : ∃ n : ℤ, (1 : ℚ) = n := ⟨1, by norm_num⟩
  have i2 : ∃ n : ℤ, (2 : ℚ) = n := ⟨2, by norm_num⟩
  have i10 : ∃ n : ℤ, (10 : ℚ) = n := ⟨10, by norm_num⟩
  have im : ∃ n : ℤ, (-1 : ℚ) = n := ⟨-1, by norm_num⟩
  refine ⟨by unfold SafeName; decide, ?_, numOK_int _, ?_⟩
  · intro o ho
    simp only [demoJob, List.mem_cons, List.not_mem_nil, or_false] at ho
    rcases ho with rfl | rfl
    · refine ⟨by unfold SafeName; decide, by unfold SafeName; decide, ?_⟩
      intro c hc
      simp only [List.mem_cons, List.not_mem_nil, or_false] at hc
      rcases hc with rfl | rfl | rfl
      · refine ⟨d _ ?_ ?_ ?_, ?_, ?_, ?_⟩ <;>
          simp [rapidAbs, fillEnd, MKind.isArc, i10]
      · refine ⟨d _ ?_ ?_ ?_, ?_, ?_, ?_⟩ <;>
          simp [rapidAbs, fillEnd, MKind.isArc, i1, i2, i10]
      · refine ⟨d _ ?_ ?_ ?_, ?_, ?_, ?_⟩ <;>
          simp [cutAbs, fillEnd, MKind.isArc, i1, i2, im, numOK_int]
    · refine ⟨by unfold SafeName; decide, by unfold SafeName; decide, ?_⟩
      intro c hc
      rw [List.mem_singleton] at hc
      subst hc
      refine ⟨⟨_, rfl, numOK_int _⟩, ?_⟩
      rintro v ⟨⟩
      exact numOK_int _
  · rintro v ⟨⟩
    exact numOK_int _

example : ∃ t m' evs, demoJob.toGcode = .ok t ∧ runText {} t = some (m', evs) ∧ evs.length = 9 := by
  obtain ⟨t, h1, h2⟩ := run_job {} demoJob demoJob_ok rfl
  exact ⟨t, _, _, h1, h2, rfl⟩

/-! ### C10-C13 -/

/-- C10.  In every program of every job history the spindle runs clockwise at every feed move. -/
theorem C10_spindle_on {j0 j : Job} (m : Machine) (h0 : InitOK j0) (hn : ∀ v, j0.toolNumber = some v → NumOK v)
    (h : Reach j0 j) (hend : m.ended = false) :
    ∃ t m' evs, j.toGcode = .ok t ∧ runText m t = some (m', evs) ∧
      ∀ e ∈ evs, isFeedMove e = true → e.st.spindle = .cw := by
  obtain ⟨t, m', evs, s, h1, h2, h3, -⟩ := program_run m h0 hn h hend
  exact ⟨t, m', evs, h1, h2, fun e he hf => (h3 e he (isMove_of_isFeedMove hf)).spindle⟩

/-- C11.  The configured coolant is active at every feed move and off at the end; without a coolant setting the
program never touches coolant. -/
theorem C11_coolant {j0 j : Job} (m : Machine) (h0 : InitOK j0) (hn : ∀ v, j0.toolNumber = some v → NumOK v)
    (h : Reach j0 j) (hend : m.ended = false) :
    ∃ t m' evs, j.toGcode = .ok t ∧ runText m t = some (m', evs) ∧
      (∀ e ∈ evs, isFeedMove e = true →
        (j.coolant = some .mist → e.st.mist = true) ∧ (j.coolant = some .flood → e.st.flood = true) ∧
        (j.coolant = some .off → e.st.mist = false ∧ e.st.flood = false)) ∧
      (j.coolant ≠ none → m'.mist = false ∧ m'.flood = false) ∧
      (j.coolant = none → (∀ e ∈ evs, e.st.mist = m.mist ∧ e.st.flood = m.flood) ∧
        m'.mist = m.mist ∧ m'.flood = m.flood) := by
  obtain ⟨t, m', evs, s, h1, h2, h3, h4, -, -, h5, h6, rfl⟩ := program_run m h0 hn h hend
  refine ⟨t, _, evs, h1, h2, ?_, h5, fun hc => ⟨h4 hc, h6 hc⟩⟩
  intro e he hf
  have hm := isMove_of_isFeedMove hf
  exact ⟨(h3 e he hm).mist, (h3 e he hm).flood, (h3 e he hm).off⟩

/-- C12.  Every program ends with a program end, executed with the spindle off; it is the only one and the very
last line of the text. -/
theorem C12_ends_stopped {j0 j : Job} (m : Machine) (h0 : InitOK j0) (hn : ∀ v, j0.toolNumber = some v → NumOK v)
    (h : Reach j0 j) (hend : m.ended = false) :
    ∃ t m' evs s t0, j.toGcode = .ok t ∧ t = t0 ++ "\nM30".toList ∧ runText m t = some (m', evs ++ [⟨s, .stop⟩]) ∧
      s.spindle = .off ∧ m'.spindle = .off ∧ m'.ended = true ∧ ∀ e ∈ evs, e.act ≠ .stop := by
  obtain ⟨t, m', evs, s, h1, h2, -, -, ⟨evs', rfl, h3⟩, h4, -, -, rfl⟩ := program_run m h0 hn h hend
  have ht : ∃ t0, t = t0 ++ "\nM30".toList := by
    unfold Job.toGcode at h1
    split at h1
    · cases h1
    · rename_i ops _
      cases h1
      refine ⟨headerText j ++ '\n' :: (safetyBlock ++ '\n' :: (startSequence j.speed j.coolant ++ '\n' ::
        (ops ++ '\n' :: (safetyBlock ++ '\n' :: stopSequence j.coolant)))), ?_⟩
      simp [endReset]
  obtain ⟨t0, ht⟩ := ht
  exact ⟨t, _, evs', s, t0, h1, ht, h2, h4, h4, rfl, h3⟩

/-- C13.  Whatever state the machine was in, every move is executed in absolute distance mode, XY plane, units per
minute, millimetres, without cutter compensation.  (Canned cycles are unknown codes for the reader, so an accepted
program contains none.) -/
theorem C13_modal_state {j0 j : Job} (m : Machine) (h0 : InitOK j0) (hn : ∀ v, j0.toolNumber = some v → NumOK v)
    (h : Reach j0 j) (hend : m.ended = false) :
    ∃ t m' evs, j.toGcode = .ok t ∧ runText m t = some (m', evs) ∧
      ∀ e ∈ evs, isMove e = true → e.st.absDist = true ∧ e.st.plane = .xy ∧ e.st.feedMode = .perMinute ∧
        e.st.radComp = .off ∧ e.st.metric = true ∧ e.st.offset = 1 ∧ e.st.planner = .continuous := by
  obtain ⟨t, m', evs, s, h1, h2, h3, -⟩ := program_run m h0 hn h hend
  exact ⟨t, m', evs, h1, h2, fun e he hm => ⟨(h3 e he hm).abs, (h3 e he hm).plane, (h3 e he hm).fm,
    (h3 e he hm).rad, (h3 e he hm).metric, (h3 e he hm).offset, (h3 e he hm).planner⟩⟩

/-- A history meeting the hypotheses of C10-C13: a fresh job, an operation with a new tool, and a second operation. -/
def demoInit : Job := Job.init Frame.xy (.int 500) (speed := some (.int 12000)) (toolNumber := some (.int 1))
  (coolant := some .flood)

/-- A request generating one retract, one XY rapid and one cut. -/
def demoRequest (tool : Option Tool) : Request :=
  { opName := "Pocket".toList, tool, gen := fun _ => .ok [rapidAbs { z := some 10 } none,
      rapidAbs { x := some 1, y := some 2 } (some { z := some 10 }),
      cutAbs { z := some (-1) } (some ⟨some 1, some 2, some 10⟩) (some (.int 500))] }

theorem demoRequest_ok (j : Job) : RequestOK j (demoRequest (some { toolNumber := some (.int 2) })) := by
  refine ⟨by unfold SafeName demoRequest; decide, ?_, ?_⟩
  · rintro t ⟨⟩
    refine ⟨?_, by simp, by simp⟩
    rintro v ⟨⟩
    exact numOK_int _
  · intro cs hcs c hc
    simp only [demoRequest, Except.ok.injEq] at hcs
    subst hcs
    have := (demoJob_ok.ops _ (List.mem_cons_self ..)).2.2 (.motion c) (by
      simp only [List.mem_cons, List.not_mem_nil, or_false] at hc ⊢
      rcases hc with rfl | rfl | rfl <;> simp)
    exact this

theorem demo_reach : InitOK demoInit ∧ (∀ v, demoInit.toolNumber = some v → NumOK v) ∧
    ∃ j, Reach demoInit j ∧ (motionsOf j.allCommands).length = 6 ∧ j.toolNumber = some (.int 2) := by
  refine ⟨⟨rfl, by unfold SafeName; decide, numOK_int _, ?_⟩, ?_, ?_⟩
  · rintro v ⟨⟩; exact numOK_int _
  · rintro v ⟨⟩; exact numOK_int _
  · exact ⟨_, .result _ (.result _ .init (demoRequest_ok _) rfl) (demoRequest_ok _) rfl, rfl, rfl⟩

/-! ### C14 -/

/-- Does the unit mean millimetres? -/
def JUnit.isMetric : JUnit → Bool
  | .metric => true
  | .imperial => false

/-- The plane a work plane setting stands for. -/
def WorkPlane.splane : WorkPlane → SPlane
  | .xy => .xy
  | .xz => .xz
  | .yz => .yz

/-- The coordinate system a work offset setting stands for. -/
def WorkOffset.number : WorkOffset → ℕ
  | .o1 => 1
  | .o2 => 2
  | .o3 => 3
  | .o4 => 4
  | .o5 => 5
  | .o6 => 6

/-- The planner mode a setting stands for. -/
def PlannerMode.planner : PlannerMode → Planner
  | .exactPath => .exactPath
  | .exactStop => .exactStop
  | .continuous => .continuous

/-- Does the setting mean absolute distances? -/
def DistMode.isAbs : DistMode → Bool
  | .absolute => true
  | .incremental => false

/-- The machine runs in the job's configuration. -/
def ConfiguredAs (j : Job) (m : Machine) : Prop :=
  m.metric = j.unit.isMetric ∧ m.plane = j.plane.splane ∧ m.offset = j.coordinate.number ∧
    m.absDist = j.distance.isAbs ∧ m.planner = j.controllerMotion.planner

/-- C14 (as far as it holds).  The program of a job with at least one move runs in the job's configuration exactly when
that configuration is millimetres, XY plane, first work offset, absolute distances and continuous planner.  The full
C14, for every configuration, is false: `C14_violated`. -/
theorem C14_configuration_iff_partial {j0 j : Job} (m : Machine) (h0 : InitOK j0)
    (hn : ∀ v, j0.toolNumber = some v → NumOK v) (h : Reach j0 j) (hend : m.ended = false)
    (hmove : motionsOf j.allCommands ≠ []) :
    ∃ t m' evs, j.toGcode = .ok t ∧ runText m t = some (m', evs) ∧
      ((∀ e ∈ evs, isMove e = true → ConfiguredAs j e.st) ↔
        (j.unit = .metric ∧ j.plane = .xy ∧ j.coordinate = .o1 ∧ j.distance = .absolute ∧
          j.controllerMotion = .continuous)) := by
  have hok := (inv_reach (inv_init h0 hn) h).ok
  obtain ⟨t, m', evs, h1, h2, h3⟩ := C13_modal_state m h0 hn h hend
  obtain ⟨t2, m2, evs2, g1, g2, g3, -⟩ := C09_program_means_commands m j hok hend
  rw [h1] at g1; cases g1
  rw [h2] at g2; cases g2
  refine ⟨t, m', evs, h1, h2, ?_, ?_⟩
  · intro hall
    have hne : evs.filter isMove ≠ [] := by
      intro he; rw [he] at g3; cases hx : motionsOf j.allCommands with
      | nil => exact hmove hx
      | cons a b => rw [hx] at g3; cases g3
    obtain ⟨e, he⟩ := List.exists_mem_of_ne_nil _ hne
    rw [List.mem_filter] at he
    obtain ⟨c1, c2, c3, c4, c5⟩ := hall e he.1 he.2
    obtain ⟨d1, d2, d3, d4, d5, d6, d7⟩ := h3 e he.1 he.2
    rw [d1] at c4; rw [d2] at c2; rw [d5] at c1; rw [d6] at c3; rw [d7] at c5
    refine ⟨?_, ?_, ?_, ?_, ?_⟩
    · revert c1; cases j.unit <;> simp [JUnit.isMetric]
    · revert c2; cases j.plane <;> simp [WorkPlane.splane]
    · revert c3; cases j.coordinate <;> simp [WorkOffset.number]
    · revert c4; cases j.distance <;> simp [DistMode.isAbs]
    · revert c5; cases j.controllerMotion <;> simp [PlannerMode.planner]
  · rintro ⟨e1, e2, e3, e4, e5⟩ e he hm
    obtain ⟨d1, d2, d3, d4, d5, d6, d7⟩ := h3 e he hm
    refine ⟨?_, ?_, ?_, ?_, ?_⟩ <;> simp_all [JUnit.isMetric, WorkPlane.splane, WorkOffset.number, DistMode.isAbs,
      PlannerMode.planner]

/-- C14 is false: an imperial job whose program moves in millimetres. -/
theorem C14_violated : ∃ j0 j m t m' evs, InitOK j0 ∧ Reach j0 j ∧ j.unit = .imperial ∧ j.toGcode = .ok t ∧
    runText m t = some (m', evs) ∧ ∃ e ∈ evs, isMove e = true ∧ e.st.metric = true := by
  let j0 : Job := Job.init Frame.xy (.int 20) (unit := .imperial)
  have hi : InitOK j0 := ⟨rfl, by unfold SafeName; decide, numOK_int _, by rintro v ⟨⟩⟩
  have hn : ∀ v, j0.toolNumber = some v → NumOK v := by rintro v ⟨⟩
  have hr : Reach j0 _ := .result _ .init (demoRequest_ok _) rfl
  obtain ⟨t, m', evs, h1, h2, h3⟩ := C13_modal_state {} hi hn hr rfl
  obtain ⟨t2, m2, evs2, g1, g2, g3, -⟩ := C09_program_means_commands {} _ (inv_reach (inv_init hi hn) hr).ok rfl
  rw [h1] at g1; cases g1
  rw [h2] at g2; cases g2
  have hne : evs.filter isMove ≠ [] := by intro he; rw [he] at g3; cases g3
  obtain ⟨e, he⟩ := List.exists_mem_of_ne_nil _ hne
  rw [List.mem_filter] at he
  exact ⟨j0, _, {}, t, m', evs, hi, hr, rfl, h1, h2, e, he.1, he.2, (h3 e he.1 he.2).2.2.2.2.1⟩

/-! ### C15 -/

/-- The same job under another name. -/
def Job.rename (n : Text) (j : Job) : Job :=
  { j with name := n, operations := j.operations.map (fun o => { o with jobName := n }) }

/-- C15 for names without parentheses and line breaks: the machine behaves the same.  For other names C15 is false:
`C15_violated_rejected`, `C15_violated_injected`. -/
theorem C15_safe_names_partial (m : Machine) (j : Job) (n : Text) (h : JobOK j) (hn : SafeName n)
    (hend : m.ended = false) :
    ∃ t t' r, j.toGcode = .ok t ∧ (j.rename n).toGcode = .ok t' ∧ runText m t = some r ∧ runText m t' = some r := by
  have h' : JobOK (j.rename n) := by
    refine ⟨hn, ?_, h.feed, h.speed⟩
    intro o ho
    simp only [Job.rename, List.mem_map] at ho
    obtain ⟨o', ho', rfl⟩ := ho
    exact ⟨hn, (h.ops o' ho').2⟩
  have e : (j.rename n).intended m = j.intended m := by
    simp [Job.intended, Job.program, Job.allCommands, Job.rename, Function.comp_def]
  obtain ⟨t, h1, h2⟩ := run_job m j h hend
  obtain ⟨t', h3, h4⟩ := run_job m _ h' hend
  exact ⟨t, t', _, h1, h3, h2, by rw [h4, e]⟩

/-- C15 is false: a job called `Part (v2)` yields a text the reader rejects (nested comment), the same job called
`Part` does not. -/
theorem C15_violated_rejected : ∃ (j : Job) (t t' : Text),
    (j.rename "Part".toList).toGcode = .ok t ∧ (j.rename "Part (v2)".toList).toGcode = .ok t' ∧
      (runText {} t).isSome = true ∧ runText {} t' = none :=
  ⟨{ feed := .int 500, plungeFeed := .int 500, rapidHeight := 10, opSafeHeight := 1 }, _, _, rfl, rfl,
    by decide +kernel, by decide +kernel⟩

/-- An empty job with a name that leaves the comment. -/
def injJob : Job :=
  { feed := .int 500, plungeFeed := .int 500, rapidHeight := 10, opSafeHeight := 1
    name := "a)\nG0 X50\n(b".toList }

theorem injJob_run : ∃ t, injJob.toGcode = .ok t ∧ (runText {} t).map (fun r => r.2.head?.map Event.act) =
    some (some (.move .rapid { x := some 50 } {})) :=
  ⟨_, rfl, by decide +kernel⟩

/-- C15 is false: a job name can make the machine move. -/
theorem C15_violated_injected : ∃ (j : Job) (t : Text) (m' : Machine) (evs : List Event), j.operations = [] ∧
    j.name = "a)\nG0 X50\n(b".toList ∧ j.toGcode = .ok t ∧ runText {} t = some (m', evs) ∧
      ∃ e ∈ evs, e.act = .move .rapid { x := some 50 } {} := by
  obtain ⟨t, ht, hd⟩ := injJob_run
  cases hr : runText {} t with
  | none => rw [hr] at hd; cases hd
  | some r =>
    rw [hr] at hd
    simp only [Option.map_some, Option.some.injEq, Option.map_eq_some_iff] at hd
    obtain ⟨e, he, ha⟩ := hd
    exact ⟨injJob, t, r.1, r.2, rfl, rfl, ht, hr, e, List.mem_of_mem_head? he, ha⟩

/-! ### C16 -/

/-- C16 is false for every job: the file never holds the program. -/
theorem C16_violated (j : Job) (addr t : Text) (h : j.toGcode = .ok t) : j.saveGcode addr ≠ t := by
  intro he
  have hs : (j.saveGcode addr).head? = some '<' := rfl
  have ht : t.head? = some '(' := by
    unfold Job.toGcode at h
    cases ho : opTexts j.operations with
    | error e => rw [ho] at h; exact absurd h (by simp)
    | ok ops =>
      rw [ho] at h
      rw [← Except.ok.inj h]
      rfl
  rw [he, ht] at hs
  exact absurd hs (by decide)

example : ∃ t, demoJob.toGcode = .ok t := ⟨_, (run_job {} demoJob demoJob_ok rfl).choose_spec.1⟩

end CQ
