import Verif.Proofs.PrintConfig

/-! # C05-C08: single commands -/

namespace CQ

/-! ### C05 -/

/-- C05.  With a start position, each axis left out gets the start's value and each given axis is kept. -/
theorem C05_omitted_axes_filled (k : MKind) (e s : AddrVec) (f : Option PyNum) (ce mi : AddrVec) (m : Motion)
    (h : mkMotion k e (some s) f ce mi = .ok m) :
    m.start = s ∧
      (e.x = none → m.fin.x = s.x) ∧ (∀ v, e.x = some v → m.fin.x = some v) ∧
      (e.y = none → m.fin.y = s.y) ∧ (∀ v, e.y = some v → m.fin.y = some v) ∧
      (e.z = none → m.fin.z = s.z) ∧ (∀ v, e.z = some v → m.fin.z = some v) := by
  unfold mkMotion at h
  split at h
  · cases h
  · cases h
    refine ⟨rfl, ?_, ?_, ?_, ?_, ?_, ?_⟩ <;> (intros; simp_all [fillEnd])

/-- C05.  Without a start nothing is filled in and the start is unknown. -/
theorem C05_no_start (k : MKind) (e : AddrVec) (f : Option PyNum) (ce mi : AddrVec) (m : Motion)
    (h : mkMotion k e none f ce mi = .ok m) : m.start = {} ∧ m.fin = e := by
  unfold mkMotion at h
  split at h
  · cases h
  · cases h; exact ⟨rfl, rfl⟩

/-- C05.  The convenience constructors used by the routers are these constructors. -/
theorem C05_abs_constructors (e : AddrVec) (s : Option AddrVec) (f : Option PyNum) (z : Option ℚ) :
    mkMotion .rapid e s = .ok (rapidAbs e s) ∧ mkMotion .cut e s f = .ok (cutAbs e s f) ∧
      mkMotion .plungeRapid { z := z } s = .ok (verticalAbs .plungeRapid z s) ∧
      mkMotion .retract { z := z } s = .ok (verticalAbs .retract z s) ∧
      mkMotion .plungeCut { z := z } s f = .ok (verticalAbs .plungeCut z s f) :=
  ⟨rfl, rfl, rfl, rfl, rfl⟩

example : mkMotion .cut { x := some 3 } (some { y := some 2, z := some (-1) }) (some (.int 100)) =
    .ok { kind := .cut, start := { y := some 2, z := some (-1) }
          fin := ⟨some 3, some 2, some (-1)⟩, feed := some (.int 100) } := rfl

/-! ### C06 -/

/-- C06.  A plunge or retract with an X or Y target is refused; all other commands are accepted. -/
theorem C06_vertical_refused (k : MKind) (e : AddrVec) (s : Option AddrVec) (f : Option PyNum) (ce mi : AddrVec) :
    mkMotion k e s f ce mi = .error .runtimeError ↔
      (k = .plungeRapid ∨ k = .retract ∨ k = .plungeCut) ∧ (e.x ≠ none ∨ e.y ≠ none) := by
  unfold mkMotion
  cases k <;> simp only [MKind.vertical, Bool.true_and, Bool.false_and] <;>
    (rcases e with ⟨_ | x, _ | y, z⟩ <;> simp)

/-- C06.  Every plunge or retract that can be created has the same X and Y at both ends. -/
theorem C06_vertical (k : MKind) (e : AddrVec) (s : Option AddrVec) (f : Option PyNum) (ce mi : AddrVec)
    (m : Motion) (hk : k = .plungeRapid ∨ k = .retract ∨ k = .plungeCut)
    (h : mkMotion k e s f ce mi = .ok m) : m.fin.x = m.start.x ∧ m.fin.y = m.start.y := by
  unfold mkMotion at h
  have hv : k.vertical = true := by rcases hk with rfl | rfl | rfl <;> rfl
  split at h
  · cases h
  · rename_i hc
    cases h
    rcases e with ⟨_ | x, _ | y, z⟩ <;> simp [hv] at hc
    cases s <;> exact ⟨rfl, rfl⟩

/-- C06 on the machine: executing the text of a plunge or retract from its (rounded) start does not move X or Y. -/
theorem C06_machine_vertical (k : MKind) (e s : AddrVec) (f : Option PyNum) (c : Motion) (m : Machine)
    (hk : k = .plungeRapid ∨ k = .retract ∨ k = .plungeCut) (h : mkMotion k e (some s) f = .ok c)
    (hok : MotionOK c) (habs : m.absDist = true) (hend : m.ended = false)
    (hx : m.pos.x = s.x.map (rnd 3)) (hy : m.pos.y = s.y.map (rnd 3)) :
    ∃ t m' ev, c.str = .ok t ∧ runText m t = some (m', [ev]) ∧ m'.pos.x = m.pos.x ∧ m'.pos.y = m.pos.y := by
  obtain ⟨h1, h2⟩ := C06_vertical k e (some s) f {} {} c hk h
  have hs : c.start = s := (C05_omitted_axes_filled k e s f {} {} c h).1
  obtain ⟨t, ht, hr, -⟩ := run_motion m c hok habs hend
  refine ⟨t, _, _, ht, hr, ?_, ?_⟩
  · simp only [reach, h1, hs, hx]; cases s.x <;> rfl
  · simp only [reach, h2, hs, hy]; cases s.y <;> rfl

example : mkMotion .plungeCut { z := some (-3) } (some ⟨some 1, some 2, some 5⟩) (some (.int 50)) =
    .ok { kind := .plungeCut, start := ⟨some 1, some 2, some 5⟩, fin := ⟨some 1, some 2, some (-3)⟩
          feed := some (.int 50) } := rfl

/-! ### C07 -/

/-- C07.  The text of an arc, executed by a controller in incremental arc mode that stands at the rounded start,
is one arc move in the right direction to the rounded end, and the centre the controller computes from its
position and the I J K words is within 0.001 of the commanded centre on each axis. -/
theorem C07_arc_words (cw : Bool) (s e c mid : Vec) (f : Option PyNum) (m : Machine)
    (he : DoubleLike e.x ∧ DoubleLike e.y ∧ DoubleLike e.z)
    (hc : DoubleLike (c.x - s.x) ∧ DoubleLike (c.y - s.y) ∧ DoubleLike (c.z - s.z))
    (hf : ∀ v, f = some v → NumOK v) (habs : m.absDist = true) (hend : m.ended = false)
    (hpos : m.pos = ⟨some (rnd 3 s.x), some (rnd 3 s.y), some (rnd 3 s.z)⟩) :
    ∃ a t m' st i j k, mkMotion (if cw then .cw else .ccw) (.fromVec e) (some (.fromVec s)) f (.fromVec c)
        (.fromVec mid) = .ok a ∧ a.str = .ok t ∧
      runText m t = some (m', [⟨st, .move (if cw then .cw else .ccw)
        ⟨some (rnd 3 e.x), some (rnd 3 e.y), some (rnd 3 e.z)⟩ ⟨some i, some j, some k⟩⟩]) ∧
      st.pos = ⟨some (rnd 3 s.x), some (rnd 3 s.y), some (rnd 3 s.z)⟩ ∧ IsRounded 3 (c.x - s.x) i ∧ IsRounded 3 (c.y - s.y) j ∧ IsRounded 3 (c.z - s.z) k ∧
      |rnd 3 s.x + i - c.x| ≤ 1 / 1000 ∧ |rnd 3 s.y + j - c.y| ≤ 1 / 1000 ∧ |rnd 3 s.z + k - c.z| ≤ 1 / 1000 := by
  have bound : ∀ a b : ℚ, |rnd 3 a + rnd 3 (b - a) - b| ≤ 1 / 1000 := by
    intro a b
    have h1 := abs_rnd_sub_le 3 a
    have h2 := abs_rnd_sub_le 3 (b - a)
    rw [abs_le] at h1 h2 ⊢
    norm_num at h1 h2
    constructor <;> linarith
  have hok : MotionOK { kind := if cw then .cw else .ccw, start := .fromVec s, fin := .fromVec e, feed := f
                        center := .fromVec c, mid := .fromVec mid } := by
    refine ⟨⟨?_, ?_, ?_⟩, hf, ?_, fun _ => ⟨?_, ?_, ?_⟩⟩
    · rintro q ⟨⟩; exact he.1
    · rintro q ⟨⟩; exact he.2.1
    · rintro q ⟨⟩; exact he.2.2
    · cases cw <;> simp [MKind.isArc]
    · rintro v ⟨⟩; exact ⟨_, rfl, hc.1⟩
    · rintro v ⟨⟩; exact ⟨_, rfl, hc.2.1⟩
    · rintro v ⟨⟩; exact ⟨_, rfl, hc.2.2⟩
  obtain ⟨t, ht, hr, -⟩ := run_motion m _ hok habs hend
  cases cw
  · exact ⟨_, t, _, _, _, _, _, rfl, ht, hr, hpos, rnd_isRounded _ _, rnd_isRounded _ _, rnd_isRounded _ _,
      bound _ _, bound _ _, bound _ _⟩
  · exact ⟨_, t, _, _, _, _, _, rfl, ht, hr, hpos, rnd_isRounded _ _, rnd_isRounded _ _, rnd_isRounded _ _,
      bound _ _, bound _ _, bound _ _⟩

/-- A quarter circle meeting the hypotheses. -/
example : ∃ t, Motion.str { kind := .cw, start := ⟨some 0, some 1, some 0⟩, fin := ⟨some 1, some 0, some 0⟩
                            center := ⟨some 0, some 0, some 0⟩, feed := some (.int 100) } = .ok t ∧
    t = "G2 X1 Y0 Z0 I0 J-1 K0 F100".toList := ⟨_, rfl, by decide +kernel⟩

/-! ### C08 -/

/-- C08.  A start sequence, from any state: spindle on clockwise with the given speed and coolant, and nothing else
changes. -/
theorem C08_start (m : Machine) (s : Option PyNum) (c : Option Coolant) (hs : ∀ v, s = some v → NumOK v)
    (hend : m.ended = false) :
    ∃ t m', (Command.start s c).str = .ok t ∧ runText m t = some (m', []) ∧ m'.spindle = .cw ∧
      (∀ v, s = some v → m'.speed = some v.value) ∧ (s = none → m'.speed = m.speed) ∧
      (c = some .mist → m'.mist = true ∧ m'.flood = m.flood) ∧
      (c = some .flood → m'.flood = true ∧ m'.mist = m.mist) ∧
      (c = some .off → m'.mist = false ∧ m'.flood = false) ∧ (c = none → m'.mist = m.mist ∧ m'.flood = m.flood) ∧
      m' = { m with spindle := m'.spindle, speed := m'.speed, mist := m'.mist, flood := m'.flood } := by
  refine ⟨_, _, rfl, run_start m s c hs hend, ?_⟩
  rcases c with _ | c
  · cases s <;> simp [startEffect, setCoolant]
  · cases c <;> cases s <;> simp [startEffect, setCoolant]

/-- C08.  A stop sequence, from any state: spindle off, coolant off if one was configured, nothing else changes. -/
theorem C08_stop (m : Machine) (c : Option Coolant) (hend : m.ended = false) :
    ∃ t m', (Command.stop c).str = .ok t ∧ runText m t = some (m', []) ∧ m'.spindle = .off ∧
      (c ≠ none → m'.mist = false ∧ m'.flood = false) ∧ (c = none → m'.mist = m.mist ∧ m'.flood = m.flood) ∧
      m' = { m with spindle := .off, mist := m'.mist, flood := m'.flood } := by
  refine ⟨_, _, rfl, run_stop m c hend, ?_⟩
  rcases c with _ | c <;> simp [stopEffect]

/-- C08.  A tool change, from any state: home, pause and the change to tool `n` happen in this order with the
spindle off (and the coolant off if one is configured); afterwards tool `n` and its length offset are active and the
spindle runs clockwise with the given speed and coolant. -/
theorem C08_tool_change (m : Machine) (n : PyNum) (s : Option PyNum) (c : Option Coolant) (hn : NumOK n)
    (hs : ∀ v, s = some v → NumOK v) (hend : m.ended = false) :
    ∃ t m' e1 e2 e3, (Command.toolChange (some n) s c).str = .ok t ∧ runText m t = some (m', [e1, e2, e3]) ∧
      e1.act = .home ∧ e2.act = .pause ∧ e3.act = .toolChange n.value ∧
      (∀ e ∈ [e1, e2, e3], e.st.spindle = .off ∧ (c ≠ none → e.st.mist = false ∧ e.st.flood = false)) ∧
      m'.tool = some n.value ∧ m'.lenOff = some n.value ∧ m'.spindle = .cw ∧
      (∀ v, s = some v → m'.speed = some v.value) ∧ (s = none → m'.speed = m.speed) ∧
      (c = some .mist → m'.mist = true ∧ m'.flood = false) ∧ (c = some .flood → m'.flood = true ∧ m'.mist = false) ∧
      (c = some .off → m'.mist = false ∧ m'.flood = false) ∧ (c = none → m'.mist = m.mist ∧ m'.flood = m.flood) ∧
      m'.plane = m.plane ∧ m'.absDist = m.absDist ∧ m'.feedMode = m.feedMode ∧ m'.metric = m.metric ∧
      m'.radComp = m.radComp ∧ m'.offset = m.offset ∧ m'.planner = m.planner ∧ m'.feed = m.feed := by
  refine ⟨_, _, _, _, _, rfl, run_toolChange m n s c hn hs hend, ?_⟩
  rcases c with _ | c
  · cases s <;> simp [startEffect, setCoolant, stopEffect]
  · cases c <;> cases s <;> simp [startEffect, setCoolant, stopEffect]

example : toolChangeText (some (.int 3)) (some (.int 12000)) (some .flood) =
    "M5 M9\nG30\nM1\nT3 G43 H3 M6\nM3 S12000 M8".toList := by decide +kernel

end CQ
