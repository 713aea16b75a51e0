import Verif.Spec.Turn
import Verif.Props.Shift

/-! # C136: turning or mirroring the part turns or mirrors the tool path with it -/

namespace CQ

/-! ### Single commands -/

theorem turn_det (s : Turn) : s.det * s.det = 1 := by
  obtain ⟨a, b, c, d, h1, h2, h3⟩ := s
  simp only [Turn.det]
  linear_combination (b * b + d * d) * h1 + h2 - (a * b + c * d) * h3

theorem turn_inj (s : Turn) : Function.Injective (Pt.turn s) := by
  intro p q h
  have h1 := s.unitX; have h2 := s.unitY; have h3 := s.perp
  simp only [Pt.turn, Pt.mk.injEq] at h
  ext
  · linear_combination s.a * h.1 + s.c * h.2 - (p.x - q.x) * h1 - (p.y - q.y) * h3
  · linear_combination s.b * h.1 + s.d * h.2 - (p.y - q.y) * h2 - (p.x - q.x) * h3

theorem vec_turn_inj (s : Turn) : Function.Injective (Vec.turn s) := by
  intro p q h
  simp only [Vec.turn, Vec.mk.injEq] at h
  have := turn_inj s (a₁ := ⟨p.x, p.y⟩) (a₂ := ⟨q.x, q.y⟩) (by simp only [Pt.turn, h.1, h.2.1])
  simp only [Pt.mk.injEq] at this
  exact Vec.ext this.1 this.2 h.2.2

@[simp] theorem fromVec_turn (s : Turn) (v : Vec) : AddrVec.fromVec (v.turn s) = (AddrVec.fromVec v).turn s := rfl

theorem fillEnd_turn (s : Turn) {e : AddrVec} (he : e.x.isSome = e.y.isSome) (a : Option AddrVec) :
    fillEnd (e.turn s) (a.map (AddrVec.turn s)) = (fillEnd e a).turn s := by
  cases a with
  | none => rfl
  | some a =>
    rcases e with ⟨ex, ey, ez⟩
    rcases a with ⟨ax, ay, az⟩
    cases ex <;> cases ey <;> simp at he <;> cases ax <;> cases ay <;> cases ez <;> rfl

theorem rapidAbs_turn (s : Turn) {e : AddrVec} (he : e.x.isSome = e.y.isSome) (a : AddrVec) :
    rapidAbs (e.turn s) (some (a.turn s)) = (rapidAbs e (some a)).turn s := by
  simp only [rapidAbs, Motion.turn, Option.getD, ← fillEnd_turn s he (some a), Option.map]; rfl

theorem cutAbs_turn (s : Turn) {e : AddrVec} (he : e.x.isSome = e.y.isSome) (a : AddrVec) (f : Option PyNum) :
    cutAbs (e.turn s) (some (a.turn s)) f = (cutAbs e (some a) f).turn s := by
  simp only [cutAbs, Motion.turn, Option.getD, ← fillEnd_turn s he (some a), Option.map]; rfl

@[simp] theorem cutVec_turn (s : Turn) (v : Vec) (a : AddrVec) (f : Option PyNum) :
    cutAbs ((AddrVec.fromVec v).turn s) (some (a.turn s)) f = (cutAbs (.fromVec v) (some a) f).turn s := cutAbs_turn s rfl a f

/-- Not an arc. -/
def Straight (k : MKind) : Prop := k ≠ .cw ∧ k ≠ .ccw

theorem kind_straight (s : Turn) {k : MKind} (h : Straight k) : s.kind k = k := by
  cases k <;> first | rfl | exact absurd rfl h.1 | exact absurd rfl h.2

theorem verticalAbs_turn (s : Turn) {k : MKind} (hk : Straight k) (z : Option ℚ) (a : AddrVec) (f : Option PyNum) :
    verticalAbs k z (some (a.turn s)) f = (verticalAbs k z (some a) f).turn s := by
  have h := fillEnd_turn s (e := { z := z }) rfl (some a)
  simp only [Option.map] at h
  simp only [verticalAbs, Motion.turn, Option.getD, ← h, kind_straight s hk]; rfl

theorem straight_retract : Straight .retract := by unfold Straight; decide
theorem straight_plungeRapid : Straight .plungeRapid := by unfold Straight; decide
theorem straight_plungeCut : Straight .plungeCut := by unfold Straight; decide

@[simp] theorem turn_fin (s : Turn) (c : Motion) : (c.turn s).fin = c.fin.turn s := rfl

@[simp] theorem empty_turn (s : Turn) : AddrVec.turn s {} = {} := rfl

theorem lastFin_turn (s : Turn) (d : AddrVec) (cs : List Motion) :
    lastFin (d.turn s) (cs.map (Motion.turn s)) = (lastFin d cs).turn s := by
  simp only [lastFin, List.getLast?_map]
  cases cs.getLast? <;> rfl

theorem Job.turn_fields (s : Turn) (j : Job) : (j.turn s).top = j.top ∧ (j.turn s).feed = j.feed ∧
    (j.turn s).precision = j.precision ∧ (j.turn s).rapidHeight = j.rapidHeight ∧ (j.turn s).opSafeHeight = j.opSafeHeight ∧
    (j.turn s).plungeFeed = j.plungeFeed ∧ (j.turn s).toolRadius = j.toolRadius ∧ (j.turn s).toolDiameter = j.toolDiameter :=
  ⟨rfl, rfl, rfl, rfl, rfl, rfl, rfl, rfl⟩

theorem rapidTo_turn (s : Turn) (a : AddrVec) (e : Vec) (h : ℚ) (p : Option ℚ) (f : Option PyNum) :
    rapidTo (a.turn s) (e.turn s) h p f = (rapidTo a e h p f).map (Motion.turn s) := by
  unfold rapidTo
  simp only [verticalAbs_turn s straight_retract, turn_fin]
  generalize (verticalAbs .retract (some h) (some a)).fin = b
  generalize verticalAbs .retract (some h) (some a) = c1
  have hx : (b.turn s).x ≠ some (e.turn s).x ∨ (b.turn s).y ≠ some (e.turn s).y ↔ b.x ≠ some e.x ∨ b.y ≠ some e.y := by
    rcases b with ⟨bx, bY, bz⟩
    cases bx <;> cases bY <;> try simp [AddrVec.turn, Vec.turn]
    rename_i x y
    rw [← not_and_or, ← not_and_or, not_iff_not]
    constructor
    · intro hh
      have := turn_inj s (a₁ := ⟨x, y⟩) (a₂ := ⟨e.x, e.y⟩) (by simp only [Pt.turn, hh.1, hh.2])
      simpa using this
    · rintro ⟨rfl, rfl⟩
      exact ⟨rfl, rfl⟩
  have hr : rapidAbs { x := some (e.turn s).x, y := some (e.turn s).y } (some (b.turn s)) =
      (rapidAbs { x := some e.x, y := some e.y } (some b)).turn s := rapidAbs_turn s (e := { x := some e.x, y := some e.y }) rfl b
  have hz : (e.turn s).z = e.z := rfl
  by_cases hc : b.x ≠ some e.x ∨ b.y ≠ some e.y
  · rw [if_pos hc, if_pos (hx.mpr hc), hr]
    simp only [turn_fin, verticalAbs_turn s straight_plungeRapid, verticalAbs_turn s straight_plungeCut, hz]
    cases p with
    | none => simp
    | some p => simp only; split <;> simp
  · rw [if_neg hc, if_neg (fun h => hc (hx.mp h))]
    simp only [turn_fin, verticalAbs_turn s straight_plungeRapid, verticalAbs_turn s straight_plungeCut, hz]
    cases p with
    | none => simp
    | some p => simp only; split <;> simp

/-! ### The whole program -/

theorem addOther_turn (s : Turn) (j : Job) (name : Text) (c : Command) (hc : c.turn s = c) :
    (j.turn s).addOperation name [c] = (j.addOperation name [c]).turn s := by
  simp [Job.turn, Job.addOperation, Operation.turn, hc]

theorem withSettings_turn (s : Turn) (j : Job) (u : Settings) : (j.turn s).withSettings u = (j.withSettings u).turn s := rfl

theorem updateTool_turn (s : Turn) (j : Job) (t : Option Tool) :
    ((j.turn s).updateTool t).2 = (j.updateTool t).2.turn s ∧ ((j.updateTool t).2).top = j.top := by
  cases t with
  | none => exact ⟨rfl, rfl⟩
  | some t =>
    have hs : (j.turn s).settings.inherit (some t) = j.settings.inherit (some t) := rfl
    have h1 := updateTool_some j t
    have h2 := updateTool_some (j.turn s) t
    simp only [hs] at h1 h2
    generalize j.settings.inherit (some t) = u at h1 h2
    have hA : needsToolChange (j.turn s) u ↔ needsToolChange j u := Iff.rfl
    have hB : needsSpeedChange (j.turn s) u ↔ needsSpeedChange j u := Iff.rfl
    rcases h1 with ⟨a, e⟩ | ⟨a, b, e⟩ | ⟨a, b, e⟩ <;> rcases h2 with ⟨a', e'⟩ | ⟨a', b', e'⟩ | ⟨a', b', e'⟩ <;>
      first
      | (exfalso; tauto)
      | (rw [e, e']; exact ⟨rfl, rfl⟩)
      | (rw [e, e']; exact ⟨by rw [addOther_turn s j _ _ rfl, withSettings_turn]; rfl, rfl⟩)

theorem addOperation_turn (s : Turn) (j : Job) (name : Text) (cs : List Motion) :
    (j.turn s).addOperation name ((cs.map (Motion.turn s)).map .motion) = (j.addOperation name (cs.map .motion)).turn s := by
  simp [Job.turn, Job.addOperation, Operation.turn, Command.turn, Function.comp_def]

theorem call_turn {s : Turn} {j : Job} {r r' : Request} (h : TurnWork s j.top r r') :
    ((j.turn s).call r').2 = (j.call r).2.map (Job.turn s) ∧ ∀ j', (j.call r).2 = .ok j' → j'.top = j.top := by
  obtain ⟨h1, h2⟩ := updateTool_turn s j r.tool
  simp only [Job.call, h.tool, h.name, h.pre j rfl, h1, h.gen _ h2]
  cases hp : r.pre j with
  | error e => exact ⟨rfl, fun j' hj => by cases hj⟩
  | ok _ =>
    cases hg : r.gen (j.updateTool r.tool).2 with
    | error e => exact ⟨rfl, fun j' hj => by cases hj⟩
    | ok cs =>
      refine ⟨?_, fun j' hj => by cases hj; exact h2⟩
      simp only [Except.map, addOperation_turn]

theorem chain_turn {s : Turn} {rs rs' : List Request} : ∀ {j : Job}, List.Forall₂ (TurnWork s j.top) rs rs' →
    (j.turn s).chain rs' = (j.chain rs).map (Job.turn s) := by
  induction rs generalizing rs' with
  | nil => intro j h; cases h; rfl
  | cons r rs ih =>
    intro j h
    cases h with
    | cons hr hrs =>
      obtain ⟨h1, h2⟩ := call_turn hr
      simp only [Job.chain, h1]
      cases hc : (j.call r).2 with
      | error e => rfl
      | ok j' =>
        simp only [Except.map]
        rw [← h2 j' hc] at hrs
        exact ih hrs

/-- C136.  If every call does its work turned by `s`, the chain of calls for the turned part is accepted or refused like the
original one, and its operations are those of the original one with every motion turned by `s`. -/
theorem C136_program {s : Turn} {j : Job} (hj : j.operations = []) {rs rs' : List Request}
    (h : List.Forall₂ (TurnWork s j.top) rs rs') : j.chain rs' = (j.chain rs).map (Job.turn s) := by
  have e : j.turn s = j := by
    simp only [Job.turn, hj, List.map_nil]
    rw [← hj]
  rw [← chain_turn h, e]

/-! ### Drilling -/

theorem dist2_turn (s : Turn) (p q : Pt) : dist2 (Pt.turn s p) (Pt.turn s q) = dist2 p q := by
  simp only [dist2, Pt.turn]
  linear_combination (p.x - q.x) ^ 2 * s.unitX + (p.y - q.y) ^ 2 * s.unitY + 2 * (p.x - q.x) * (p.y - q.y) * s.perp

theorem pickNearestFrom_turn (s : Turn) (p : Pt) (d : ℚ) (best : Pt) (os : List Pt) :
    pickNearestFrom (Pt.turn s p) d (Pt.turn s best) (os.map (Pt.turn s)) = Pt.turn s (pickNearestFrom p d best os) := by
  induction os generalizing d best with
  | nil => rfl
  | cons o os ih =>
    simp only [List.map_cons, pickNearestFrom, dist2_turn]
    split <;> exact ih _ _

theorem pickNearest_turn (s : Turn) (p : Pt) (os : List Pt) :
    pickNearest (Pt.turn s p) (os.map (Pt.turn s)) = (pickNearest p os).map (Pt.turn s) := by
  cases os with
  | nil => rfl
  | cons o os => simp only [List.map_cons, pickNearest, dist2_turn, pickNearestFrom_turn, Except.map]

theorem nextHole_turn (s : Turn) (last : Option Pt) (ps : List Pt) :
    nextHole (last.map (Pt.turn s)) (ps.map (Pt.turn s)) = (nextHole last ps).map (Pt.turn s) := by
  cases last with
  | some l => exact pickNearest_turn s l ps
  | none => cases ps <;> rfl

theorem orderHoles_turn (s : Turn) (n : ℕ) (last : Option Pt) (ps : List Pt) :
    orderHoles n (last.map (Pt.turn s)) (ps.map (Pt.turn s)) = (orderHoles n last ps).map (List.map (Pt.turn s)) := by
  induction n generalizing last ps with
  | zero => cases ps <;> rfl
  | succ n ih =>
    cases ps with
    | nil => rfl
    | cons p ps =>
      have h := nextHole_turn s last (p :: ps)
      simp only [List.map_cons] at h
      simp only [List.map_cons, orderHoles, h, bind_map_side, map_bind_side]
      congr 1
      funext next
      have he : (Pt.turn s p :: ps.map (Pt.turn s)).erase (Pt.turn s next) = ((p :: ps).erase next).map (Pt.turn s) := by
        rw [List.map_erase (turn_inj s)]; rfl
      have := ih (some next) ((p :: ps).erase next)
      simp only [Option.map] at this
      rw [he, this, bind_map_side]
      rfl

theorem drillHole_turn (s : Turn) (j : Job) (d : ℚ) (pos : AddrVec) (p : Pt) :
    drillHole (j.turn s) d (pos.turn s) (Pt.turn s p) = (drillHole j d pos p).map (Motion.turn s) := by
  have h1 : rapidAbs { z := some j.opSafeHeight } (some (pos.turn s)) = (rapidAbs { z := some j.opSafeHeight } (some pos)).turn s :=
    rapidAbs_turn s (e := { z := some j.opSafeHeight }) rfl pos
  have h2 (a : AddrVec) : rapidAbs { x := some (Pt.turn s p).x, y := some (Pt.turn s p).y } (some (a.turn s)) =
      (rapidAbs { x := some p.x, y := some p.y } (some a)).turn s := rapidAbs_turn s (e := { x := some p.x, y := some p.y }) rfl a
  have h3 (a : AddrVec) : rapidAbs { z := some 0 } (some (a.turn s)) = (rapidAbs { z := some 0 } (some a)).turn s :=
    rapidAbs_turn s (e := { z := some 0 }) rfl a
  simp only [drillHole, Job.turn_fields, h1, turn_fin, h2, h3, verticalAbs_turn s straight_plungeCut, List.map_cons, List.map_nil]

theorem drillHoles_turn (s : Turn) (j : Job) (d : ℚ) (pos : AddrVec) (ps : List Pt) :
    drillHoles (j.turn s) d (pos.turn s) (ps.map (Pt.turn s)) = (drillHoles j d pos ps).map (Motion.turn s) := by
  induction ps generalizing pos with
  | nil => rfl
  | cons p ps ih => simp only [List.map_cons, drillHoles, drillHole_turn, lastFin_turn, ih, List.map_append]

theorem toWorld_turned {f : Frame} {s : Turn} (h : f.Level) (v : Vec) :
    (⟨(f.toWorld (f.turnPoint s v)).x, (f.toWorld (f.turnPoint s v)).y⟩ : Pt) =
      Pt.turn s ⟨(f.toWorld v).x, (f.toWorld v).y⟩ := by
  obtain ⟨h1, h2, h3, h4, h5⟩ := h
  simp [Frame.turnPoint, Frame.toWorld, Frame.toLocal, h1, h2, h3, h4, h5, Vec.add, Vec.smul, Vec.sub, Vec.dot, Pt.turn, Vec.turn]

theorem drillVectors_turn {center : List Edge → Except Err Vec} {f : Frame} {s : Turn} (hc : CentreTurns f s center)
    (h : f.Level) (o : DrillObj) :
    (drillVectors center f (f.turnDrill s o)).map (List.map (fun v : Vec => (⟨v.x, v.y⟩ : Pt))) =
      ((drillVectors center f o).map (List.map (fun v : Vec => (⟨v.x, v.y⟩ : Pt)))).map (List.map (Pt.turn s)) := by
  cases o with
  | vector v => simp only [Frame.turnDrill, drillVectors, Except.map, List.map_cons, List.map_nil, toWorld_turned h]
  | other => rfl
  | wire w =>
    simp only [Frame.turnDrill, drillVectors, hc w, bind_map_side, map_bind_side]
    simp only [Except.map, List.map_cons, List.map_nil, toWorld_turned h]
  | face w is =>
    simp only [Frame.turnDrill, drillVectors]
    cases is with
    | nil =>
      simp only [List.map_nil, ne_eq, not_true_eq_false, if_false, hc w, bind_map_side, map_bind_side]
      simp only [Except.map, List.map_cons, List.map_nil, toWorld_turned h]
    | cons i is =>
      rw [if_pos (by simp), if_pos (by simp)]
      generalize i :: is = l
      induction l with
      | nil => rfl
      | cons a l ih =>
        simp only [List.map_cons, mapE, hc a, bind_map_side]
        cases center a with
        | error e => rfl
        | ok c =>
          simp only [ok_bind]
          revert ih
          cases mapE (fun w => do
              let c ← center w
              Except.ok (f.toWorld c)) (l.map (List.map (f.turnEdge s))) <;>
            cases mapE (fun w => do
              let c ← center w
              Except.ok (f.toWorld c)) l <;> intro ih <;> simp only [Except.map] at ih ⊢ <;> first | (cases ih; rfl) | cases ih | skip
          injection ih with ih
          simp only [ok_bind, List.map_cons, toWorld_turned h, ih]

/-- C136, for drilling (as far as it holds, see `C136_violated_drill`).  The holes are drilled in the same order, each at its new
place. -/
theorem C136_drill_partial {center : List Edge → Except Err Vec} {f : Frame} {s : Turn} (hc : CentreTurns f s center)
    (h : f.Level) (o : Option (List DrillObj)) (depth : Option ℚ) (tool : Option Tool) :
    TurnWork s f (drillRequest center o depth tool)
      (drillRequest center (o.map (List.map (f.turnDrill s))) depth tool) where
  name := rfl
  tool := rfl
  pre := fun _ _ => rfl
  gen := by
    rintro j rfl
    change drill center _ depth (j.turn s) = (drill center o depth j).map _
    cases o with
    | none => rfl
    | some objs =>
      cases depth with
      | none => rfl
      | some d =>
        let pt : Vec → Pt := fun v => ⟨v.x, v.y⟩
        have hd : ∀ (i : Job) (os : List DrillObj), drill center (some os) (some d) i =
            ((mapE (drillVectors center i.top) os).map (List.map (List.map pt))) >>= (fun ps =>
              if ps.flatten = [] then .error .operationError
              else orderHoles ps.flatten.length none ps.flatten >>= fun ordered =>
                .ok (drillHoles i (-|d|) {} ordered)) := by
          intro i os
          rw [bind_map_side]
          simp only [← List.map_flatten]
          rfl
        simp only [Option.map, hd, mapE_post, (Job.turn_fields s j).1]
        rw [mapE_side (f := fun o => (drillVectors center j.top o).map (List.map pt)) (σ := (j.top.turnDrill s)) (f' := fun o => (drillVectors center j.top o).map (List.map pt)) (τ := List.map (Pt.turn s))
          (drillVectors_turn hc h), bind_map_side, map_bind_side]
        congr 1
        funext ps
        rw [← List.map_flatten]
        by_cases hp : ps.flatten = []
        · simp [hp, Except.map]
        · rw [if_neg hp, if_neg (by simpa using hp), List.length_map]
          have h1 := orderHoles_turn s ps.flatten.length none ps.flatten
          have h2 := fun l => drillHoles_turn s j (-|d|) {} l
          simp only [empty_turn] at h2
          simp only [Option.map] at h1
          rw [h1, bind_map_side, map_bind_side]
          simp only [h2, Except.map]

end CQ
