import Verif.Spec.Program
import Verif.Proofs.PrintConfig

/-! The text of a whole program has the intended effect. -/

namespace CQ

theorem safeName_noParen {t : Text} (h : SafeName t) : NoParen t := fun c hc => ⟨(h c hc).1, (h c hc).2.1⟩

theorem safeName_nl {t : Text} (h : SafeName t) : '\n' ∉ t := fun hc => (h _ hc).2.2 rfl

theorem safeName_append {a b : Text} (ha : SafeName a) (hb : SafeName b) : SafeName (a ++ b) := by
  intro c hc; rw [List.mem_append] at hc; exact hc.elim (ha c) (hb c)

theorem safeName_num {n : PyNum} (h : NumOK n) : SafeName n.str := by
  have hn := numChars_of_readDec h
  intro c hc
  have h1 := noParen_num hn c hc
  exact ⟨h1.1, h1.2, (not_blank_of_numChar (hn c hc)).2.2⟩

theorem run_comment_safe (m : Machine) (t : Text) (h : SafeName t) :
    runText m ('(' :: t ++ [')']) = some (m, []) :=
  runText_comment m t (safeName_noParen h) (safeName_nl h)

theorem run_commands (m : Machine) (cs : List Command) (h : ∀ c ∈ cs, CommandOK c) (habs : m.absDist = true)
    (hend : m.ended = false) (hd : Text) (hhd : runText m hd = some (m, [])) :
    ∃ ts, commandTexts cs = .ok ts ∧ runText m (joinNL (hd :: ts)) = some (effects m cs) := by
  induction cs generalizing m hd with
  | nil => exact ⟨[], rfl, by simpa [joinNL, effects] using hhd⟩
  | cons c cs ih =>
    obtain ⟨t, ht, hrun, hne⟩ := run_command m c (h c (by simp)) habs hend
    have key : ∀ (t : Text) (m : Machine), m.absDist = true → m.ended = false →
        ∃ ts, commandTexts cs = .ok ts ∧
          ∀ (m0 : Machine) (e : List Event), runText m0 t = some (m, e) →
            runText m0 (joinNL (t :: ts)) = some ((effects m cs).1, e ++ (effects m cs).2) := by
      intro t m habs hend
      obtain ⟨ts, h1, h2⟩ := ih m (fun c hc => h c (by simp [hc])) habs hend [] (runText_nil m)
      refine ⟨ts, h1, ?_⟩
      intro m0 e hm0
      rcases ts with _ | ⟨u, us⟩
      · simp only [joinNL] at h2 ⊢
        rw [runText_nil] at h2
        have h2' := Option.some.inj h2
        rw [← h2', hm0]; simp
      · simp only [joinNL] at h2 ⊢
        rw [List.nil_append] at h2
        have h3 := runText_append_nl m [] (joinNL (u :: us))
        rw [List.nil_append, h2, runText_nil] at h3
        rcases hr : runText m (joinNL (u :: us)) with _ | ⟨m2, e2⟩
        · simp [hr] at h3
        · simp only [hr, List.nil_append, Option.some.injEq] at h3
          rw [runText_trans hm0 hr, h3]
    obtain ⟨ts, hts, hfin⟩ := key t (c.effect m).1 (effect_absDist m c habs) (by rw [effect_ended]; exact hend)
    refine ⟨t :: ts, by simp [commandTexts, ht, hts, hne], ?_⟩
    have h1 := hfin m (c.effect m).2 hrun
    simp only [joinNL] at h1 ⊢
    rw [runText_trans hhd h1]
    simp [effects]

theorem run_operation (m : Machine) (o : Operation) (h1 : SafeName o.jobName) (h2 : SafeName o.name)
    (h3 : ∀ c ∈ o.commands, CommandOK c) (habs : m.absDist = true) (hend : m.ended = false) :
    ∃ t, o.toGcode = .ok t ∧ runText m t = some (effects m o.commands) := by
  have hname : SafeName (o.jobName ++ " - ".toList ++ o.name) :=
    safeName_append (safeName_append h1 (by unfold SafeName; decide)) h2
  obtain ⟨ts, hts, hrun⟩ := run_commands m o.commands h3 habs hend _ (run_comment_safe m _ hname)
  exact ⟨_, by simp only [Operation.toGcode, hts], hrun⟩

theorem run_operations (m : Machine) (os : List Operation)
    (h : ∀ o ∈ os, SafeName o.jobName ∧ SafeName o.name ∧ ∀ c ∈ o.commands, CommandOK c)
    (habs : m.absDist = true) (hend : m.ended = false) :
    ∃ t, opTexts os = .ok t ∧ runText m t = some (effects m (os.map Operation.commands).flatten) := by
  induction os generalizing m with
  | nil => exact ⟨[], rfl, runText_nil m⟩
  | cons o os ih =>
    obtain ⟨a, b, c⟩ := h o (by simp)
    obtain ⟨t, ht, hrun⟩ := run_operation m o a b c habs hend
    rcases os with _ | ⟨o2, os⟩
    · refine ⟨t, by simp [opTexts, ht], ?_⟩
      rw [hrun]; simp
    · obtain ⟨ts, hts, hrun2⟩ := ih (effects m o.commands).1 (fun x hx => h x (by simp [hx]))
        (effects_absDist m _ habs) (by rw [effects_ended]; exact hend)
      refine ⟨t ++ "\n\n\n".toList ++ ts, by rw [opTexts, ht]; simp only [hts], ?_⟩
      have e : t ++ "\n\n\n".toList ++ ts = t ++ '\n' :: (([] : Text) ++ '\n' :: (([] : Text) ++ '\n' :: ts)) := by
        simp
      rw [e, runText_trans (e1 := (effects m o.commands).2) hrun (runText_trans (runText_nil _)
        (runText_trans (runText_nil _) hrun2))]
      simp only [List.map_cons, List.flatten_cons]
      rw [effects_append m o.commands]
      simp

/-- The text of a job, read by the specification's interpreter, is the intended run. -/
theorem run_job (m : Machine) (j : Job) (h : JobOK j) (hend : m.ended = false) :
    ∃ t, j.toGcode = .ok t ∧ runText m t = some (j.intended m) := by
  have hs0 := run_safety m hend
  set m1 := (safetyEffect m).1 with hm1
  have h1end : m1.ended = false := hend
  have h1abs : m1.absDist = true := rfl
  have hst := run_start m1 j.speed j.coolant h.speed h1end
  set m2 := startEffect m1 j.speed j.coolant with hm2
  have h2 : (Command.effect m1 (.start j.speed j.coolant)).1 = m2 := rfl
  have h2end : m2.ended = false := by rw [← h2, effect_ended]; exact h1end
  have h2abs : m2.absDist = true := by rw [← h2]; exact effect_absDist _ _ h1abs
  obtain ⟨t, ht, hrun⟩ := run_operations m2 j.operations h.ops h2abs h2end
  set m3 := (effects m2 j.allCommands).1 with hm3
  have h3end : m3.ended = false := by rw [hm3, effects_ended]; exact h2end
  have hs3 := run_safety m3 h3end
  set m4 := (safetyEffect m3).1 with hm4
  have h4end : m4.ended = false := h3end
  have hsp := run_stop m4 j.coolant h4end
  set m5 := stopEffect m4 j.coolant with hm5
  have h5end : m5.ended = false := by
    have : (Command.effect m4 (.stop j.coolant)).1 = m5 := rfl
    rw [← this, effect_ended]; exact h4end
  have hhead : runText m (headerText j) = some (m, []) := by
    apply run_comment_safe
    refine safeName_append (safeName_append (safeName_append (safeName_append h.name ?_) (safeName_num h.feed)) ?_) ?_
    · unfold SafeName; decide
    · unfold SafeName; decide
    · cases j.unit <;> (unfold SafeName; decide)
  refine ⟨_, by simp only [Job.toGcode, ht]; rfl, ?_⟩
  rw [runText_trans hhead (runText_trans hs0 (runText_trans hst (runText_trans hrun (runText_trans hs3
    (runText_trans hsp (run_m30 m5 h5end))))))]
  simp only [Job.intended, Job.program]
  rw [effects_append, effects_append]
  simp only [effects, Command.effect]
  simp only [List.nil_append, List.append_assoc, List.append_nil]
  rfl

end CQ
