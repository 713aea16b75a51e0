import Verif.Proofs.History

/-! What the programs of reachable jobs do. -/

namespace CQ

theorem doubleLike_int (n : ℤ) : DoubleLike n := Or.inr ⟨n, rfl⟩

theorem numOK_int (n : ℤ) : NumOK (.int n) := readDec_intText n

theorem isMove_of_isFeedMove {e : Event} (h : isFeedMove e = true) : isMove e = true := by
  unfold isFeedMove at h; unfold isMove
  split at h
  · rfl
  · cases h

theorem performs_effect (m : Machine) (c : Motion) : ∃ e, (c.effect m).2 = [e] ∧ Performs e c ∧ isMove e = true := by
  refine ⟨_, rfl, ⟨_, _, rfl, ?_, ?_, ?_, rfl, ?_⟩, rfl⟩
  · have : (withFeed m c).pos = m.pos := by unfold withFeed; split <;> rfl
    simp only [reach, this]; constructor <;> (intros; simp [*])
  · have : (withFeed m c).pos = m.pos := by unfold withFeed; split <;> rfl
    simp only [reach, this]; constructor <;> (intros; simp [*])
  · have : (withFeed m c).pos = m.pos := by unfold withFeed; split <;> rfl
    simp only [reach, this]; constructor <;> (intros; simp [*])
  · intro h f hf; simp [withFeed, h, hf]

theorem effects_moves (m : Machine) (cs : List Command) :
    List.Forall₂ Performs ((effects m cs).2.filter isMove) (motionsOf cs) ∧
      ((effects m cs).2.filter (fun e => !isMove e)).map Event.act = otherActs cs := by
  induction cs generalizing m with
  | nil => exact ⟨by simp [effects, motionsOf], rfl⟩
  | cons c cs ih =>
    simp only [effects, List.filter_append, List.map_append]
    cases c with
    | motion c =>
      obtain ⟨e, he, hp, hm⟩ := performs_effect m c
      simp only [Command.effect, he, motionsOf, otherActs]
      refine ⟨?_, ?_⟩
      · rw [List.filter_cons_of_pos hm]; exact List.Forall₂.cons hp (ih _).1
      · simp [hm, (ih _).2]
    | start s c => exact ih _
    | stop c => exact ih _
    | safety => exact ⟨(ih _).1, congrArg (Act.home :: ·) (ih _).2⟩
    | toolChange n s c => exact ⟨(ih _).1, congrArg (fun l => Act.home :: Act.pause ::
        Act.toolChange ((n.map PyNum.value).getD 0) :: l) (ih _).2⟩

/-- What holds of every state between header and footer. -/
structure Running (cool : Option Coolant) (m0 m : Machine) : Prop where
  spindle : m.spindle = .cw
  abs : m.absDist = true
  plane : m.plane = .xy
  fm : m.feedMode = .perMinute
  rad : m.radComp = .off
  metric : m.metric = true
  mist : cool = some .mist → m.mist = true
  flood : cool = some .flood → m.flood = true
  off : cool = some .off → m.mist = false ∧ m.flood = false
  untouched : cool = none → m.mist = m0.mist ∧ m.flood = m0.flood
  arc : m.arcInc = m0.arcInc
  offset : m.offset = 1
  planner : m.planner = .continuous

theorem running_start {cool : Option Coolant} {m0 m : Machine} (s : Option PyNum) (hm : m.mist = m0.mist)
    (hf : m.flood = m0.flood) (ha : m.arcInc = m0.arcInc) :
    Running cool m0 (startEffect (safetyEffect m).1 s cool) := by
  rcases cool with _ | c
  · constructor <;> simp [startEffect, setCoolant, safetyEffect, safeModal, hm, hf, ha]
  · cases c <;> constructor <;> simp [startEffect, setCoolant, safetyEffect, safeModal, ha]

theorem running_step {cool : Option Coolant} {m0 m : Machine} (h : Running cool m0 m) (c : Command)
    (hc : Plain cool c) :
    Running cool m0 (c.effect m).1 ∧ ∀ e ∈ (c.effect m).2,
      (isMove e = true → Running cool m0 e.st) ∧ e.act ≠ .stop ∧ (cool = none → e.st.mist = m0.mist ∧
        e.st.flood = m0.flood) := by
  obtain ⟨h1, h2, h3, h4, h5, h6, h7, h8, h9, h10, h11, h12, h13⟩ := h
  cases c with
  | motion c =>
    have hw : Running cool m0 (withFeed m c) := by
      unfold withFeed
      split
      · constructor <;> assumption
      · constructor <;> assumption
    refine ⟨?_, ?_⟩
    · obtain ⟨g1, g2, g3, g4, g5, g6, g7, g8, g9, g10, g11, g12, g13⟩ := hw
      constructor <;> assumption
    · intro e he
      simp only [Command.effect, Motion.effect, List.mem_singleton] at he
      subst he
      exact ⟨fun _ => hw, by simp, hw.untouched⟩
  | start s c =>
    obtain ⟨-, rfl⟩ := hc
    refine ⟨?_, by simp [Command.effect]⟩
    rcases c with _ | c
    · constructor <;> simp_all [Command.effect, startEffect, setCoolant]
    · cases c <;> constructor <;> simp_all [Command.effect, startEffect, setCoolant]
  | stop c => exact hc.elim
  | safety => exact hc.elim
  | toolChange n s c =>
    obtain ⟨-, rfl⟩ := hc
    refine ⟨?_, ?_⟩
    · rcases c with _ | c
      · constructor <;> simp_all [Command.effect, toolChangeEffect, startEffect, setCoolant, stopEffect]
      · cases c <;> constructor <;>
          simp_all [Command.effect, toolChangeEffect, startEffect, setCoolant, stopEffect]
    · intro e he
      simp only [Command.effect, toolChangeEffect, List.mem_cons, List.not_mem_nil, or_false] at he
      rcases c with _ | c
      · rcases he with rfl | rfl | rfl <;> simp_all [isMove, stopEffect]
      · rcases he with rfl | rfl | rfl <;> simp [isMove]

/-- Everything the program of a reachable job does. -/
theorem program_run {j0 j : Job} (m : Machine) (h0 : InitOK j0) (hn : ∀ v, j0.toolNumber = some v → NumOK v)
    (h : Reach j0 j) (hend : m.ended = false) :
    ∃ t m' evs s, j.toGcode = .ok t ∧ runText m t = some (m', evs) ∧
      (∀ e ∈ evs, isMove e = true → Running j.coolant m e.st) ∧
      (j.coolant = none → ∀ e ∈ evs, e.st.mist = m.mist ∧ e.st.flood = m.flood) ∧
      (∃ evs', evs = evs' ++ [⟨s, .stop⟩] ∧ ∀ e ∈ evs', e.act ≠ .stop) ∧
      s.spindle = .off ∧ (j.coolant ≠ none → s.mist = false ∧ s.flood = false) ∧
      (j.coolant = none → s.mist = m.mist ∧ s.flood = m.flood) ∧ m' = { s with ended := true } := by
  have hI := inv_reach (inv_init h0 hn) h
  obtain ⟨t, ht, hr⟩ := run_job m j hI.ok hend
  have hcool := hI.cool
  have hst := running_start (cool := j.coolant) (m0 := m) (m := m) j.speed rfl rfl rfl
  set m2 := startEffect (safetyEffect m).1 j.speed j.coolant with hm2
  have hall := inv_allCommands hI
  obtain ⟨hP, hQ⟩ := effects_inv (Running j.coolant m)
    (fun e => (isMove e = true → Running j.coolant m e.st) ∧ e.act ≠ .stop ∧
      (j.coolant = none → e.st.mist = m.mist ∧ e.st.flood = m.flood))
    j.allCommands m2 hst
    (fun m' hm' c hc => running_step hm' c (by rw [hcool]; exact (hall c hc).2))
  set r := effects m2 j.allCommands with hr2
  have hint : j.intended m = ({ stopEffect (safetyEffect r.1).1 j.coolant with ended := true },
      ((⟨safeModal m, .home⟩ : Event) :: (r.2 ++ [⟨safeModal r.1, .home⟩])) ++
        [⟨stopEffect (safetyEffect r.1).1 j.coolant, .stop⟩]) := by
    simp only [Job.intended, Job.program]
    rw [effects_append, effects_append]
    simp only [effects, Command.effect, ← hm2, ← hr2]
    simp [safetyEffect]
  refine ⟨t, _, _, stopEffect (safetyEffect r.1).1 j.coolant, ht, by rw [hr, hint], ?_, ?_, ⟨_, rfl, ?_⟩, ?_, ?_, ?_,
    rfl⟩
  · intro e he hmv
    simp only [List.mem_append, List.mem_cons, List.not_mem_nil, or_false] at he
    rcases he with (rfl | he | rfl) | rfl
    · cases hmv
    · exact (hQ e he).1 hmv
    · cases hmv
    · cases hmv
  · intro hc e he
    simp only [List.mem_append, List.mem_cons, List.not_mem_nil, or_false] at he
    rcases he with (rfl | he | rfl) | rfl
    · exact ⟨rfl, rfl⟩
    · exact (hQ e he).2.2 hc
    · exact hP.untouched hc
    · rw [hc]; exact hP.untouched hc
  · intro e he
    simp only [List.mem_append, List.mem_cons, List.not_mem_nil, or_false] at he
    rcases he with rfl | he | rfl
    · simp
    · exact (hQ e he).2.1
    · simp
  · unfold stopEffect; split <;> rfl
  · intro hc; unfold stopEffect
    split
    · rename_i h; exact absurd h hc
    · exact ⟨rfl, rfl⟩
  · intro hc; rw [hc]; exact hP.untouched hc

end CQ
