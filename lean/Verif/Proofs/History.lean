import Verif.Spec.History
import Verif.Proofs.Program

/-! Invariants of job histories. -/

namespace CQ

/-- What commands occur in a job: moves, starts and tool changes with the job's coolant. -/
def Plain (cool : Option Coolant) : Command → Prop
  | .motion _ => True
  | .start s c => (∃ v, s = some v) ∧ c = cool
  | .toolChange n _ c => (∃ v, n = some v) ∧ c = cool
  | _ => False

/-- Invariant of reachable jobs. -/
structure Inv (j0 j : Job) : Prop where
  ok : JobOK j
  name : j.name = j0.name
  cool : j.coolant = j0.coolant
  plain : ∀ o ∈ j.operations, ∀ c ∈ o.commands, Plain j0.coolant c
  number : ∀ v, j.toolNumber = some v → NumOK v
  frame : j.top = j0.top ∧ j.plungeFeed = j0.plungeFeed ∧ j.rapidHeight = j0.rapidHeight ∧
    j.opSafeHeight = j0.opSafeHeight ∧ j.precision = j0.precision ∧ j.unit = j0.unit ∧ j.plane = j0.plane ∧
    j.coordinate = j0.coordinate ∧ j.distance = j0.distance ∧ j.arcDistance = j0.arcDistance ∧
    j.controllerMotion = j0.controllerMotion

theorem inv_init {j0 : Job} (h : InitOK j0) (hn : ∀ v, j0.toolNumber = some v → NumOK v) : Inv j0 j0 where
  ok := ⟨h.name, by simp [h.fresh], h.feed, h.speed⟩
  name := rfl
  cool := rfl
  plain := by simp [h.fresh]
  number := hn
  frame := by simp

/-- A job with other settings. -/
def Job.withSettings (j : Job) (s : Settings) : Job :=
  { j with toolNumber := s.toolNumber, toolDiameter := s.toolDiameter, feed := s.feed, speed := s.speed }

/-- Must a tool change be inserted? -/
def needsToolChange (j : Job) (s : Settings) : Prop :=
  s.toolNumber ≠ none ∧ s.toolNumber.map PyNum.value ≠ j.toolNumber.map PyNum.value

/-- Must a speed change be inserted (if no tool change is)? -/
def needsSpeedChange (j : Job) (s : Settings) : Prop :=
  s.speed ≠ none ∧ s.speed.map PyNum.value ≠ j.speed.map PyNum.value

theorem updateTool_some (j : Job) (t : Tool) :
    let s := j.settings.inherit (some t)
    (needsToolChange j s ∧ j.updateTool (some t) = (j, (j.addOperation "Tool Change".toList
        [.toolChange s.toolNumber s.speed j.coolant]).withSettings s)) ∨
    (¬ needsToolChange j s ∧ needsSpeedChange j s ∧ j.updateTool (some t) = (j, (j.addOperation
        "Speed Change".toList [.start s.speed j.coolant]).withSettings s)) ∨
    (¬ needsToolChange j s ∧ ¬ needsSpeedChange j s ∧ j.updateTool (some t) = (j.withSettings s, j.withSettings s)) := by
  intro s
  have e : j.updateTool (some t) =
      if (s.toolNumber.isSome && !pyEq s.toolNumber j.toolNumber) = true then
        (j, (j.addOperation "Tool Change".toList [.toolChange s.toolNumber s.speed j.coolant]).withSettings s)
      else if (s.speed.isSome && !pyEq s.speed j.speed) = true then
        (j, (j.addOperation "Speed Change".toList [.start s.speed j.coolant]).withSettings s)
      else (j.withSettings s, j.withSettings s) := by
    rcases t with ⟨_ | _, _ | _, _ | _, _ | _⟩ <;> rfl
  have hA : (s.toolNumber.isSome && !pyEq s.toolNumber j.toolNumber) = true ↔ needsToolChange j s := by
    unfold needsToolChange pyEq
    cases s.toolNumber <;> simp
  have hB : (s.speed.isSome && !pyEq s.speed j.speed) = true ↔ needsSpeedChange j s := by
    unfold needsSpeedChange pyEq
    cases s.speed <;> simp
  rw [e]
  by_cases hTC : needsToolChange j s
  · rw [if_pos (hA.2 hTC)]; exact Or.inl ⟨hTC, rfl⟩
  · rw [if_neg (fun h => hTC (hA.1 h))]
    by_cases hSC : needsSpeedChange j s
    · rw [if_pos (hB.2 hSC)]; exact Or.inr (Or.inl ⟨hTC, hSC, rfl⟩)
    · rw [if_neg (fun h => hSC (hB.1 h))]; exact Or.inr (Or.inr ⟨hTC, hSC, rfl⟩)

theorem updateTool_receiver (j : Job) (t : Option Tool) :
    (j.updateTool t).1 = j ∨ (j.updateTool t).1 = (j.updateTool t).2 := by
  cases t with
  | none => exact Or.inl rfl
  | some t => rcases updateTool_some j t with ⟨-, h⟩ | ⟨-, -, h⟩ | ⟨-, -, h⟩ <;> simp [h]

theorem inherit_number {j0 j : Job} {t : Tool} (h : Inv j0 j) (ht : ToolOK t) :
    ∀ v, (j.settings.inherit (some t)).toolNumber = some v → NumOK v := by
  intro v hv
  simp only [Settings.inherit] at hv
  cases hn : t.toolNumber with
  | none => rw [hn] at hv; exact h.number v hv
  | some n => rw [hn] at hv; cases hv; exact ht.number _ hn

theorem inherit_speed {j0 j : Job} {t : Tool} (h : Inv j0 j) (ht : ToolOK t) :
    ∀ v, (j.settings.inherit (some t)).speed = some v → NumOK v := by
  intro v hv
  simp only [Settings.inherit] at hv
  cases hn : t.speed with
  | none => rw [hn] at hv; exact h.ok.speed v hv
  | some n => rw [hn] at hv; cases hv; exact ht.speed _ hn

theorem inherit_feed {j0 j : Job} {t : Tool} (h : Inv j0 j) (ht : ToolOK t) :
    NumOK (j.settings.inherit (some t)).feed := by
  simp only [Settings.inherit]
  cases hn : t.feed with
  | none => exact h.ok.feed
  | some n => exact ht.feed _ hn

theorem inv_addOperation {j0 j : Job} (h : Inv j0 j) (n : Text) (cs : List Command) (hn : SafeName n)
    (hc : ∀ c ∈ cs, CommandOK c ∧ Plain j0.coolant c) : Inv j0 (j.addOperation n cs) where
  ok := by
    refine ⟨h.ok.name, ?_, h.ok.feed, h.ok.speed⟩
    intro o ho
    simp only [Job.addOperation, List.mem_append, List.mem_singleton] at ho
    rcases ho with ho | rfl
    · exact h.ok.ops o ho
    · exact ⟨h.ok.name, hn, fun c hc' => (hc c hc').1⟩
  name := h.name
  cool := h.cool
  plain := by
    intro o ho
    simp only [Job.addOperation, List.mem_append, List.mem_singleton] at ho
    rcases ho with ho | rfl
    · exact h.plain o ho
    · exact fun c hc' => (hc c hc').2
  number := h.number
  frame := h.frame

theorem inv_set {j0 j : Job} (h : Inv j0 j) (s : Settings)
    (h1 : ∀ v, s.toolNumber = some v → NumOK v) (h2 : NumOK s.feed) (h3 : ∀ v, s.speed = some v → NumOK v) :
    Inv j0 (j.withSettings s) where
  ok := ⟨h.ok.name, h.ok.ops, h2, h3⟩
  name := h.name
  cool := h.cool
  plain := h.plain
  number := h1
  frame := h.frame

theorem inv_updateTool {j0 j : Job} (h : Inv j0 j) (t : Option Tool) (ht : ∀ x, t = some x → ToolOK x) :
    Inv j0 (j.updateTool t).2 := by
  cases t with
  | none => exact h
  | some t =>
    have ht := ht t rfl
    have hn := inherit_number h ht
    have hs := inherit_speed h ht
    have hf := inherit_feed h ht
    rcases updateTool_some j t with ⟨hc, e⟩ | ⟨-, hc, e⟩ | ⟨-, -, e⟩
    · rw [e]
      refine inv_set (inv_addOperation h _ _ (by unfold SafeName; decide) ?_) _ hn hf hs
      obtain ⟨v, hv⟩ := Option.ne_none_iff_exists'.1 hc.1
      intro c hc
      rw [List.mem_singleton] at hc
      subst hc
      exact ⟨⟨⟨v, hv, hn v hv⟩, hs⟩, ⟨v, hv⟩, h.cool⟩
    · rw [e]
      refine inv_set (inv_addOperation h _ _ (by unfold SafeName; decide) ?_) _ hn hf hs
      intro c hc'
      rw [List.mem_singleton] at hc'
      subst hc'
      exact ⟨hs, Option.ne_none_iff_exists'.1 hc.1, h.cool⟩
    · rw [e]; exact inv_set h _ hn hf hs

theorem inv_reach {j0 j : Job} (h0 : Inv j0 j0) (h : Reach j0 j) : Inv j0 j := by
  induction h with
  | init => exact h0
  | @result j j' r h hr e ih =>
    unfold Job.call at e
    split at e
    · cases e
    · dsimp only at e
      split at e
      · cases e
      · rename_i cs hcs
        cases e
        refine inv_addOperation (inv_updateTool ih _ hr.tool) _ _ hr.name ?_
        intro c hc
        rw [List.mem_map] at hc
        obtain ⟨x, hx, rfl⟩ := hc
        exact ⟨hr.gen _ hcs x hx, trivial⟩
  | @receiver j r h hr ih =>
    have key : Inv j0 (j.updateTool r.tool).1 := by
      rcases updateTool_receiver j r.tool with e | e
      · rw [e]; exact ih
      · rw [e]; exact inv_updateTool ih _ hr.tool
    unfold Job.call
    split
    · exact ih
    · dsimp only
      split <;> exact key

theorem inv_allCommands {j0 j : Job} (h : Inv j0 j) : ∀ c ∈ j.allCommands, CommandOK c ∧ Plain j0.coolant c := by
  intro c hc
  simp only [Job.allCommands, List.mem_flatten, List.mem_map] at hc
  obtain ⟨l, ⟨o, ho, rfl⟩, hc⟩ := hc
  exact ⟨(h.ok.ops o ho).2.2 c hc, h.plain o ho c hc⟩

/-- Induction over command effects: `P` holds of every state, `Q` of every event. -/
theorem effects_inv (P : Machine → Prop) (Q : Event → Prop) (cs : List Command) (m : Machine) (h0 : P m)
    (step : ∀ m, P m → ∀ c ∈ cs, P (c.effect m).1 ∧ ∀ e ∈ (c.effect m).2, Q e) :
    P (effects m cs).1 ∧ ∀ e ∈ (effects m cs).2, Q e := by
  induction cs generalizing m with
  | nil => exact ⟨h0, by simp [effects]⟩
  | cons c cs ih =>
    obtain ⟨h1, h2⟩ := step m h0 c (by simp)
    obtain ⟨h3, h4⟩ := ih (c.effect m).1 h1 (fun m hm c hc => step m hm c (by simp [hc]))
    refine ⟨h3, ?_⟩
    intro e he
    simp only [effects, List.mem_append] at he
    exact he.elim (h2 e) (h4 e)

end CQ
