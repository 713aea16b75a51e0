import Verif.Proofs.Print

/-! The text of configuration commands has the intended effect. -/

namespace CQ

theorem run_start (m : Machine) (s : Option PyNum) (c : Option Coolant) (hs : ∀ v, s = some v → NumOK v)
    (hend : m.ended = false) : runText m (startSequence s c) = some (startEffect m s c, []) := by
  have hM3 : LineOf cutterOnCW [('M', ['3'])] := lineOf_code (by decide) (by decide)
  have hcool : ∀ k : Coolant, LineOf k.str [('M', match k with | .mist => ['7'] | .flood => ['8'] | .off => ['9'])] := by
    intro k; cases k <;> exact lineOf_code (by decide) (by decide)
  rcases s with _ | n
  · rcases c with _ | k
    · rw [show startSequence none none = cutterOnCW from rfl,
        execLine_of_lineOf hM3 (b := { ms := [30] }) rfl (by simp) hend]
      rfl
    · rw [show startSequence none (some k) = cutterOnCW ++ ' ' :: k.str from rfl,
        execLine_of_lineOf (hM3.append (hcool k).space)
          (b := { ms := [30, match k with | .mist => 70 | .flood => 80 | .off => 90] })
          (by cases k <;> rfl) (by simp) hend]
      cases k <;> rfl
  · have hn : readDec n.str = some n.value := hs n rfl
    have hS := plainWord_lineOf (l := 'S') (a := some n) (by decide) hs
    rcases c with _ | k
    · rw [show startSequence (some n) none = cutterOnCW ++ ' ' :: plainWord 'S' (some n) from rfl,
        execLine_of_lineOf (hM3.append hS.space) (b := { ms := [30], ps := [('S', n.value)] })
          (by simp [plainToks, parseWords, hn]; rfl) (by simp) hend]
      rfl
    · rw [show startSequence (some n) (some k)
          = cutterOnCW ++ ' ' :: (plainWord 'S' (some n) ++ ' ' :: k.str) from rfl,
        execLine_of_lineOf (hM3.append (hS.append (hcool k).space).space)
          (b := { ms := [30, match k with | .mist => 70 | .flood => 80 | .off => 90], ps := [('S', n.value)] })
          (by cases k <;> (simp [plainToks, parseWords, hn]; rfl)) (by simp) hend]
      cases k <;> rfl

theorem run_stop (m : Machine) (c : Option Coolant) (hend : m.ended = false) :
    runText m (stopSequence c) = some (stopEffect m c, []) := by
  have hM5 : LineOf cutterOff [('M', ['5'])] := lineOf_code (by decide) (by decide)
  have hM9 : LineOf Coolant.off.str [('M', ['9'])] := lineOf_code (by decide) (by decide)
  rcases c with _ | k
  · rw [show stopSequence none = cutterOff from rfl,
      execLine_of_lineOf hM5 (b := { ms := [50] }) rfl (by simp) hend]
    rfl
  · rw [show stopSequence (some k) = cutterOff ++ ' ' :: Coolant.off.str from rfl,
      execLine_of_lineOf (hM5.append hM9.space) (b := { ms := [50, 90] }) rfl (by simp) hend]
    rfl

theorem run_g30 (m : Machine) (hend : m.ended = false) :
    runText m secondaryHome = some ({ m with pos := {} }, [⟨m, .home⟩]) := by
  have h : LineOf secondaryHome [('G', ['3', '0'])] := lineOf_code (by decide) (by decide)
  rw [execLine_of_lineOf h (b := { gs := [300] }) rfl (by simp) hend]
  rfl

theorem run_m1 (m : Machine) (hend : m.ended = false) :
    runText m pauseOptional = some (m, [⟨m, .pause⟩]) := by
  have h : LineOf pauseOptional [('M', ['1'])] := lineOf_code (by decide) (by decide)
  rw [execLine_of_lineOf h (b := { ms := [10] }) rfl (by simp) hend]
  rfl

theorem run_m30 (m : Machine) (hend : m.ended = false) :
    runText m endReset = some ({ m with ended := true }, [⟨m, .stop⟩]) := by
  have h : LineOf endReset [('M', ['3', '0'])] := lineOf_code (by decide) (by decide)
  rw [execLine_of_lineOf h (b := { ms := [300] }) rfl (by simp) hend]
  rfl

theorem run_toolLine (m : Machine) (n : PyNum) (hn : NumOK n) (hend : m.ended = false) :
    runText m (joinSpace [plainWord 'T' (some n), lengthCompOn, plainWord 'H' (some n), toolChangeCode]) =
      some ({ m with nextTool := some n.value, tool := some n.value, spindle := .off, lenOff := some n.value },
        [⟨{ m with nextTool := some n.value }, .toolChange n.value⟩]) := by
  have hn' : readDec n.str = some n.value := hn
  have hall : ∀ v, some n = some v → NumOK v := by rintro v ⟨⟩; exact hn
  have hT := plainWord_lineOf (l := 'T') (a := some n) (by decide) hall
  have hH := plainWord_lineOf (l := 'H') (a := some n) (by decide) hall
  have h43 : LineOf lengthCompOn [('G', ['4', '3'])] := lineOf_code (by decide) (by decide)
  have h6 : LineOf toolChangeCode [('M', ['6'])] := lineOf_code (by decide) (by decide)
  rw [joinSpace_four, execLine_of_lineOf (hT.append (h43.append (hH.append h6.space).space).space)
    (b := { gs := [430], ms := [60], ps := [('T', n.value), ('H', n.value)] })
    (by simp [plainToks, parseWords, hn']; rfl) (by simp) hend]
  rfl

theorem run_safety (m : Machine) (hend : m.ended = false) :
    runText m safetyBlock = some (safetyEffect m) := by
  have h1 : LineOf (joinSpace [DistMode.absolute.str, WorkOffset.o1.str, PlannerMode.continuous.str,
      maxSpindleSpeed, WorkPlane.xy.str, unitsPerMinute])
      [('G', "90".toList), ('G', "54".toList), ('G', "64".toList), ('G', "50".toList), ('G', "17".toList),
        ('G', "94".toList)] := by
    refine ⟨by unfold NoParen; decide, by decide, by decide, ?_⟩
    intro w hw
    simp only [List.mem_cons, List.not_mem_nil, or_false] at hw
    rcases hw with rfl | rfl | rfl | rfl | rfl | rfl <;> exact ⟨by decide, by decide, by decide⟩
  have h2 : LineOf (joinSpace [lengthCompOff, radiusCompOff, cannedCancel])
      [('G', "49".toList), ('G', "40".toList), ('G', "80".toList)] := by
    refine ⟨by unfold NoParen; decide, by decide, by decide, ?_⟩
    intro w hw
    simp only [List.mem_cons, List.not_mem_nil, or_false] at hw
    rcases hw with rfl | rfl | rfl <;> exact ⟨by decide, by decide, by decide⟩
  have h3 : LineOf JUnit.metric.str [('G', ['2', '1'])] := lineOf_code (by decide) (by decide)
  have e1 : runText m (joinSpace [DistMode.absolute.str, WorkOffset.o1.str, PlannerMode.continuous.str,
      maxSpindleSpeed, WorkPlane.xy.str, unitsPerMinute]) = some ({ m with
        absDist := true, offset := 1, planner := .continuous, plane := .xy, feedMode := .perMinute }, []) := by
    rw [execLine_of_lineOf h1 (b := { gs := [900, 540, 640, 500, 170, 940] }) rfl (by simp) hend]
    rfl
  have e2 : ∀ m : Machine, m.ended = false → runText m (joinSpace [lengthCompOff, radiusCompOff, cannedCancel])
      = some ({ m with lenOff := none, radComp := .off, motion := none }, []) := by
    intro m hend
    rw [execLine_of_lineOf h2 (b := { gs := [490, 400, 800] }) rfl (by simp) hend]
    rfl
  have e3 : ∀ m : Machine, m.ended = false → runText m JUnit.metric.str = some ({ m with metric := true }, []) := by
    intro m hend
    rw [execLine_of_lineOf h3 (b := { gs := [210] }) rfl (by simp) hend]
    rfl
  unfold safetyBlock
  simp only [joinNL]
  rw [runText_trans e1 (runText_trans (e2 _ hend) (runText_trans (e3 _ hend) (run_g30 _ hend)))]
  rfl

theorem run_toolChange (m : Machine) (n : PyNum) (s : Option PyNum) (c : Option Coolant) (hn : NumOK n)
    (hs : ∀ v, s = some v → NumOK v) (hend : m.ended = false) :
    runText m (toolChangeText (some n) s c) = some (toolChangeEffect m n.value s c) := by
  have hend1 : (stopEffect m c).ended = false := by
    unfold stopEffect; cases c <;> exact hend
  unfold toolChangeText
  simp only [joinNL]
  rw [runText_trans (run_stop m c hend) (runText_trans (run_g30 _ hend1)
    (runText_trans (run_m1 _ hend1) (runText_trans (run_toolLine _ n hn hend1) (run_start _ s c hs hend1))))]
  rfl

/-- The text of every printable command has the intended effect. -/
theorem run_command (m : Machine) (c : Command) (hc : CommandOK c) (habs : m.absDist = true)
    (hend : m.ended = false) :
    ∃ t, c.str = .ok t ∧ runText m t = some (c.effect m) ∧ t ≠ [] := by
  cases c with
  | motion c => exact run_motion m c hc habs hend
  | start s c =>
    refine ⟨_, rfl, run_start m s c hc hend, ?_⟩
    cases s <;> cases c <;> simp [startSequence, joinSpace, cutterOnCW]
  | stop c =>
    refine ⟨_, rfl, run_stop m c hend, ?_⟩
    cases c <;> simp [stopSequence, joinSpace, cutterOff]
  | safety => exact ⟨_, rfl, run_safety m hend, by decide⟩
  | toolChange n s c =>
    obtain ⟨⟨v, rfl, hv⟩, hs⟩ := hc
    refine ⟨_, rfl, run_toolChange m v s c hv hs hend, ?_⟩
    simp [toolChangeText, joinNL]

theorem effect_absDist (m : Machine) (c : Command) (habs : m.absDist = true) :
    (c.effect m).1.absDist = true := by
  cases c with
  | motion c => simp only [Command.effect, Motion.effect, withFeed]; split <;> exact habs
  | start s c => simp only [Command.effect, startEffect]; rcases c with _ | c; · exact habs
                 cases c <;> exact habs
  | stop c => cases c <;> exact habs
  | safety => rfl
  | toolChange n s c =>
    simp only [Command.effect, toolChangeEffect, startEffect, stopEffect]
    rcases c with _ | c
    · exact habs
    · cases c <;> exact habs

theorem effect_ended (m : Machine) (c : Command) : (c.effect m).1.ended = m.ended := by
  cases c with
  | motion c => simp only [Command.effect, Motion.effect, withFeed]; split <;> rfl
  | start s c => simp only [Command.effect, startEffect]; rcases c with _ | c; · rfl
                 cases c <;> rfl
  | stop c => cases c <;> rfl
  | safety => rfl
  | toolChange n s c =>
    simp only [Command.effect, toolChangeEffect, startEffect, stopEffect]
    rcases c with _ | c
    · rfl
    · cases c <;> rfl

theorem effects_absDist (m : Machine) (cs : List Command) (habs : m.absDist = true) :
    (effects m cs).1.absDist = true := by
  induction cs generalizing m with
  | nil => exact habs
  | cons c cs ih => exact ih _ (effect_absDist m c habs)

theorem effects_ended (m : Machine) (cs : List Command) : (effects m cs).1.ended = m.ended := by
  induction cs generalizing m with
  | nil => rfl
  | cons c cs ih => simp only [effects]; rw [ih, effect_ended]

theorem effects_append (m : Machine) (a b : List Command) :
    effects m (a ++ b) = ((effects (effects m a).1 b).1, (effects m a).2 ++ (effects (effects m a).1 b).2) := by
  induction a generalizing m with
  | nil => simp [effects]
  | cons c cs ih => simp [effects, ih]

end CQ
