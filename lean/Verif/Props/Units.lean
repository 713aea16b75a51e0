import Verif.Spec.Units
import Verif.Props.Shift

/-! # C134: the same work in other units -/

namespace CQ

/-! ### Single commands -/

theorem conv_inj (κ : Units) : Function.Injective (Pt.conv κ) := by
  intro p q h
  have := κ.pos.ne'
  simp only [Pt.conv, Pt.mk.injEq, mul_eq_mul_left_iff, this, or_false] at h
  exact Pt.ext h.1 h.2

theorem vec_conv_inj (κ : Units) : Function.Injective (Vec.conv κ) := by
  intro p q h
  have := κ.pos.ne'
  simp only [Vec.conv, Vec.mk.injEq, mul_eq_mul_left_iff, this, or_false] at h
  exact Vec.ext h.1 h.2.1 h.2.2

@[simp] theorem fromVec_conv (κ : Units) (v : Vec) : AddrVec.fromVec (v.conv κ) = (AddrVec.fromVec v).conv κ := rfl

theorem fillEnd_conv (κ : Units) (e : AddrVec) (a : Option AddrVec) :
    fillEnd (e.conv κ) (a.map (AddrVec.conv κ)) = (fillEnd e a).conv κ := by
  cases a with
  | none => rfl
  | some a =>
    rcases e with ⟨ex, ey, ez⟩
    cases ex <;> cases ey <;> cases ez <;> rfl

theorem rapidAbs_conv (κ : Units) (e a : AddrVec) : rapidAbs (e.conv κ) (some (a.conv κ)) = (rapidAbs e (some a)).conv κ := by
  simp only [rapidAbs, Motion.conv, Option.getD, ← fillEnd_conv κ e (some a), Option.map]; rfl

theorem cutAbs_conv (κ : Units) (e a : AddrVec) (f : Option PyNum) :
    cutAbs (e.conv κ) (some (a.conv κ)) (f.map κ.feed) = (cutAbs e (some a) f).conv κ := by
  simp only [cutAbs, Motion.conv, Option.getD, ← fillEnd_conv κ e (some a), Option.map]; rfl

theorem verticalAbs_conv (κ : Units) (k : MKind) (z : ℚ) (a : AddrVec) (f : Option PyNum) :
    verticalAbs k (some (κ.c * z)) (some (a.conv κ)) (f.map κ.feed) = (verticalAbs k (some z) (some a) f).conv κ := by
  have h := fillEnd_conv κ { z := some z } (some a)
  simp only [Option.map] at h
  simp only [verticalAbs, Motion.conv, Option.getD, ← h]; rfl

@[simp] theorem conv_fin (κ : Units) (c : Motion) : (c.conv κ).fin = c.fin.conv κ := rfl

@[simp] theorem empty_conv (κ : Units) : AddrVec.conv κ {} = {} := rfl

theorem lastFin_conv (κ : Units) (d : AddrVec) (cs : List Motion) :
    lastFin (d.conv κ) (cs.map (Motion.conv κ)) = (lastFin d cs).conv κ := by
  simp only [lastFin, List.getLast?_map]
  cases cs.getLast? <;> rfl

theorem Job.conv_fields (κ : Units) (j : Job) : (j.conv κ).top = j.top.conv κ ∧ (j.conv κ).feed = κ.feed j.feed ∧
    (j.conv κ).precision = κ.precision ∧ (j.conv κ).rapidHeight = κ.c * j.rapidHeight ∧
    (j.conv κ).opSafeHeight = κ.c * j.opSafeHeight ∧ (j.conv κ).plungeFeed = κ.feed j.plungeFeed ∧
    (j.conv κ).toolDiameter = j.toolDiameter.map (κ.c * ·) :=
  ⟨rfl, rfl, rfl, rfl, rfl, rfl, rfl⟩

theorem toolRadius_conv (κ : Units) (j : Job) : (j.conv κ).toolRadius = j.toolRadius.map (κ.c * ·) := by
  have := κ.pos.ne'
  unfold Job.toolRadius
  rw [(Job.conv_fields κ j).2.2.2.2.2.2]
  cases j.toolDiameter with
  | none => rfl
  | some d =>
    simp only [Option.map, mul_eq_zero, this, false_or]
    split
    · rfl
    · simp only [mul_div_assoc]

theorem rapidTo_conv (κ : Units) (a : AddrVec) (e : Vec) (h p : ℚ) (f : PyNum) :
    rapidTo (a.conv κ) (e.conv κ) (κ.c * h) (some (κ.c * p)) (some (κ.feed f)) =
      (rapidTo a e h (some p) (some f)).map (Motion.conv κ) := by
  have hv : ∀ k z b, verticalAbs k (some (κ.c * z)) (some (AddrVec.conv κ b)) = (verticalAbs k (some z) (some b)).conv κ :=
    fun k z b => verticalAbs_conv κ k z b none
  have hf : ∀ k z b, verticalAbs k (some (κ.c * z)) (some (AddrVec.conv κ b)) (some (κ.feed f)) =
      (verticalAbs k (some z) (some b) (some f)).conv κ := fun k z b => verticalAbs_conv κ k z b (some f)
  unfold rapidTo
  simp only [hv, conv_fin]
  generalize (verticalAbs .retract (some h) (some a)).fin = b
  generalize verticalAbs .retract (some h) (some a) = c1
  have hx : (b.conv κ).x ≠ some (e.conv κ).x ∨ (b.conv κ).y ≠ some (e.conv κ).y ↔ b.x ≠ some e.x ∨ b.y ≠ some e.y := by
    rcases b with ⟨bx, bY, bz⟩
    cases bx <;> cases bY <;> simp [AddrVec.conv, Vec.conv, κ.pos.ne']
  have hr : rapidAbs { x := some (e.conv κ).x, y := some (e.conv κ).y } (some (b.conv κ)) =
      (rapidAbs { x := some e.x, y := some e.y } (some b)).conv κ := rapidAbs_conv κ { x := some e.x, y := some e.y } b
  have hz : (e.conv κ).z = κ.c * e.z := rfl
  have hlt : κ.c * p > κ.c * e.z ↔ p > e.z := mul_lt_mul_iff_right₀ κ.pos
  by_cases hc : b.x ≠ some e.x ∨ b.y ≠ some e.y
  · rw [if_pos hc, if_pos (hx.mpr hc), hr]
    simp only [conv_fin, hv, hf, hz, hlt]
    split <;> simp
  · rw [if_neg hc, if_neg (fun h => hc (hx.mp h))]
    simp only [conv_fin, hv, hf, hz, hlt]
    split <;> simp

/-! ### The whole program -/

theorem addOther_conv (κ : Units) (j : Job) (name : Text) (c : Command) (hc : c.conv κ = c) :
    (j.conv κ).addOperation name [c] = (j.addOperation name [c]).conv κ := by
  simp [Job.conv, Job.addOperation, Operation.conv, hc]

/-- Settings in the new units. -/
def Settings.conv (κ : Units) (s : Settings) : Settings :=
  { s with toolDiameter := s.toolDiameter.map (κ.c * ·), feed := κ.feed s.feed }

theorem withSettings_conv (κ : Units) (j : Job) (u : Settings) :
    (j.conv κ).withSettings (u.conv κ) = (j.withSettings u).conv κ := rfl

theorem updateTool_conv (κ : Units) (j : Job) (t : Option Tool) :
    ((j.conv κ).updateTool (t.map (Tool.conv κ))).2 = (j.updateTool t).2.conv κ := by
  cases t with
  | none => rfl
  | some t =>
    have hs : (j.conv κ).settings.inherit (some (t.conv κ)) = (j.settings.inherit (some t)).conv κ := by
      rcases t with ⟨_ | _, _ | _, _ | _, _ | _⟩ <;> rfl
    have h1 := updateTool_some j t
    have h2 := updateTool_some (j.conv κ) (t.conv κ)
    simp only [hs] at h1 h2
    generalize j.settings.inherit (some t) = u at h1 h2
    have hA : needsToolChange (j.conv κ) (u.conv κ) ↔ needsToolChange j u := Iff.rfl
    have hB : needsSpeedChange (j.conv κ) (u.conv κ) ↔ needsSpeedChange j u := Iff.rfl
    simp only [Option.map]
    rcases h1 with ⟨a, e⟩ | ⟨a, b, e⟩ | ⟨a, b, e⟩ <;> rcases h2 with ⟨a', e'⟩ | ⟨a', b', e'⟩ | ⟨a', b', e'⟩ <;>
      first
      | (exfalso; tauto)
      | (rw [e, e']; exact withSettings_conv κ _ _)
      | (rw [e, e']
         dsimp only
         rw [addOther_conv κ j _ _ rfl, withSettings_conv]
         rfl)

theorem addOperation_conv (κ : Units) (j : Job) (name : Text) (cs : List Motion) :
    (j.conv κ).addOperation name ((cs.map (Motion.conv κ)).map .motion) = (j.addOperation name (cs.map .motion)).conv κ := by
  simp [Job.conv, Job.addOperation, Operation.conv, Command.conv, Function.comp_def]

theorem call_conv {κ : Units} {j : Job} {r r' : Request} (h : UnitWork κ j r r') :
    ((j.conv κ).call r').2 = (j.call r).2.map (Job.conv κ) := by
  simp only [Job.call, h.tool, h.name, h.pre, updateTool_conv, h.gen]
  cases hp : r.pre j with
  | error e => rfl
  | ok _ =>
    cases hg : r.gen (j.updateTool r.tool).2 with
    | error e => rfl
    | ok cs => simp only [Except.map, addOperation_conv]

/-- C134.  If every call does in the new units what the original call does, the chain of calls in the new units is accepted or
refused like the original one, and its operations are those of the original one in the new units. -/
theorem C134_program {κ : Units} {j : Job} {rs rs' : List Request} (h : UnitChain κ j rs rs') :
    (j.conv κ).chain rs' = (j.chain rs).map (Job.conv κ) := by
  induction h with
  | nil j => rfl
  | @cons j r r' rs rs' hr hrs ih =>
    simp only [Job.chain, call_conv hr]
    cases hc : (j.call r).2 with
    | error e => rfl
    | ok j' =>
      simp only [Except.map]
      exact ih j' hc

/-! ### Drilling -/

theorem dist2_conv (κ : Units) (p q : Pt) : dist2 (Pt.conv κ p) (Pt.conv κ q) = κ.c ^ 2 * dist2 p q := by
  simp only [dist2, Pt.conv]; ring

theorem conv_sq_lt (κ : Units) (a b : ℚ) : κ.c ^ 2 * a < κ.c ^ 2 * b ↔ a < b := mul_lt_mul_iff_right₀ (pow_pos κ.pos 2)

theorem pickNearestFrom_conv (κ : Units) (p : Pt) (d : ℚ) (best : Pt) (os : List Pt) :
    pickNearestFrom (Pt.conv κ p) (κ.c ^ 2 * d) (Pt.conv κ best) (os.map (Pt.conv κ)) = Pt.conv κ (pickNearestFrom p d best os) := by
  induction os generalizing d best with
  | nil => rfl
  | cons o os ih =>
    simp only [List.map_cons, pickNearestFrom, dist2_conv, conv_sq_lt, ih]
    split <;> rfl

theorem nextHole_conv (κ : Units) (last : Option Pt) (ps : List Pt) :
    nextHole (last.map (Pt.conv κ)) (ps.map (Pt.conv κ)) = (nextHole last ps).map (Pt.conv κ) := by
  cases last with
  | none => cases ps <;> rfl
  | some l =>
    cases ps with
    | nil => rfl
    | cons p ps => simp only [Option.map, nextHole, List.map_cons, pickNearest, dist2_conv, pickNearestFrom_conv, Except.map]

theorem orderHoles_conv (κ : Units) (n : ℕ) (last : Option Pt) (ps : List Pt) :
    orderHoles n (last.map (Pt.conv κ)) (ps.map (Pt.conv κ)) = (orderHoles n last ps).map (List.map (Pt.conv κ)) := by
  induction n generalizing last ps with
  | zero => cases ps <;> rfl
  | succ n ih =>
    cases ps with
    | nil => rfl
    | cons p ps =>
      have h := nextHole_conv κ last (p :: ps)
      simp only [List.map_cons] at h
      simp only [List.map_cons, orderHoles, h, bind_map_side, map_bind_side]
      congr 1
      funext next
      have he : (Pt.conv κ p :: ps.map (Pt.conv κ)).erase (Pt.conv κ next) = ((p :: ps).erase next).map (Pt.conv κ) := by
        rw [List.map_erase (conv_inj κ)]; rfl
      have := ih (some next) ((p :: ps).erase next)
      simp only [Option.map] at this
      rw [he, this, bind_map_side]
      rfl

theorem drillHole_conv (κ : Units) (j : Job) (d : ℚ) (pos : AddrVec) (p : Pt) :
    drillHole (j.conv κ) (κ.c * d) (pos.conv κ) (Pt.conv κ p) = (drillHole j d pos p).map (Motion.conv κ) := by
  have h1 : rapidAbs { z := some (κ.c * j.opSafeHeight) } (some (pos.conv κ)) =
      (rapidAbs { z := some j.opSafeHeight } (some pos)).conv κ := rapidAbs_conv κ { z := some j.opSafeHeight } pos
  have h2 (a : AddrVec) : rapidAbs { x := some (Pt.conv κ p).x, y := some (Pt.conv κ p).y } (some (a.conv κ)) =
      (rapidAbs { x := some p.x, y := some p.y } (some a)).conv κ := rapidAbs_conv κ { x := some p.x, y := some p.y } a
  have h3 (a : AddrVec) : rapidAbs { z := some 0 } (some (a.conv κ)) = (rapidAbs { z := some 0 } (some a)).conv κ := by
    have := rapidAbs_conv κ { z := some 0 } a
    simpa [AddrVec.conv] using this
  have h4 (a : AddrVec) : verticalAbs .plungeCut (some (κ.c * d)) (some (a.conv κ)) (some (κ.feed j.feed)) =
      (verticalAbs .plungeCut (some d) (some a) (some j.feed)).conv κ := verticalAbs_conv κ .plungeCut d a (some j.feed)
  simp only [drillHole, Job.conv_fields, h1, conv_fin, h2, h3, h4, List.map_cons, List.map_nil]

theorem drillHoles_conv (κ : Units) (j : Job) (d : ℚ) (pos : AddrVec) (ps : List Pt) :
    drillHoles (j.conv κ) (κ.c * d) (pos.conv κ) (ps.map (Pt.conv κ)) = (drillHoles j d pos ps).map (Motion.conv κ) := by
  induction ps generalizing pos with
  | nil => rfl
  | cons p ps ih => simp only [List.map_cons, drillHoles, drillHole_conv, lastFin_conv, ih, List.map_append]

theorem toWorld_conv (κ : Units) (f : Frame) (v : Vec) : (f.conv κ).toWorld (v.conv κ) = (f.toWorld v).conv κ := by
  simp only [Frame.conv, Frame.toWorld, Vec.add, Vec.smul, Vec.conv]
  ext <;> ring

theorem drillVectors_conv {center : List Edge → Except Err Vec} {κ : Units} (hc : CentreUnits κ center) (f : Frame) (o : DrillObj) :
    drillVectors center (f.conv κ) (o.conv κ) = (drillVectors center f o).map (List.map (Vec.conv κ)) := by
  have hw : ∀ w, (center (w.map (Edge.conv κ)) >>= fun c => .ok ((f.conv κ).toWorld c)) =
      (center w >>= fun c => Except.ok (f.toWorld c)).map (Vec.conv κ) := by
    intro w
    rw [hc w, bind_map_side, map_bind_side]
    simp only [toWorld_conv]
    rfl
  have h1 : ∀ w, (center (w.map (Edge.conv κ)) >>= fun c => .ok [(f.conv κ).toWorld c]) =
      (center w >>= fun c => Except.ok [f.toWorld c]).map (List.map (Vec.conv κ)) := by
    intro w
    rw [hc w, bind_map_side, map_bind_side]
    simp only [toWorld_conv]
    rfl
  cases o with
  | vector v => simp only [DrillObj.conv, drillVectors, Except.map, List.map_cons, List.map_nil, toWorld_conv]
  | other => rfl
  | wire w => exact h1 w
  | face w is =>
    simp only [DrillObj.conv, drillVectors]
    cases is with
    | nil => exact h1 w
    | cons i is =>
      rw [if_pos (by simp), if_pos (by simp)]
      exact mapE_side (σ := List.map (Edge.conv κ)) (τ := Vec.conv κ) hw (i :: is)

/-- C134, for drilling: the same holes in the same order, to the same depth. -/
theorem C134_drill {center : List Edge → Except Err Vec} {κ : Units} (hc : CentreUnits κ center) (j : Job)
    (o : Option (List DrillObj)) (depth : Option ℚ) (tool : Option Tool) :
    UnitWork κ j (drillRequest center o depth tool)
      (drillRequest center (o.map (List.map (DrillObj.conv κ))) (depth.map (κ.c * ·)) (tool.map (Tool.conv κ))) where
  name := rfl
  tool := rfl
  pre := rfl
  gen := by
    generalize hj : (j.updateTool (drillRequest center o depth tool).tool).2 = i
    clear hj
    change drill center _ _ (i.conv κ) = (drill center o depth i).map _
    cases o with
    | none => rfl
    | some objs =>
      cases depth with
      | none => rfl
      | some d =>
        have hd : ∀ (i : Job) (os : List DrillObj) (d : ℚ), drill center (some os) (some d) i =
            (mapE (drillVectors center i.top) os >>= (fun vs =>
              if vs.flatten.map (fun v => (⟨v.x, v.y⟩ : Pt)) = [] then .error .operationError
              else orderHoles (vs.flatten.map (fun v => (⟨v.x, v.y⟩ : Pt))).length none (vs.flatten.map (fun v => (⟨v.x, v.y⟩ : Pt)))
                >>= fun ordered => .ok (drillHoles i (-|d|) {} ordered))) := fun _ _ _ => rfl
        simp only [Option.map, hd, (Job.conv_fields κ i).1]
        rw [mapE_side (drillVectors_conv hc i.top), bind_map_side, map_bind_side]
        congr 1
        funext vs
        have hp : ((vs.map (List.map (Vec.conv κ))).flatten.map (fun v => (⟨v.x, v.y⟩ : Pt))) =
            (vs.flatten.map (fun v => (⟨v.x, v.y⟩ : Pt))).map (Pt.conv κ) := by
          rw [← List.map_flatten, List.map_map, List.map_map]
          rfl
        rw [hp]
        generalize vs.flatten.map (fun v => (⟨v.x, v.y⟩ : Pt)) = ps
        by_cases hp : ps = []
        · simp [hp, Except.map]
        · rw [if_neg hp, if_neg (by simpa using hp), List.length_map]
          have h1 := orderHoles_conv κ ps.length none ps
          have habs : -|κ.c * d| = κ.c * -|d| := by rw [abs_mul, abs_of_pos κ.pos]; ring
          have h2 := fun l => drillHoles_conv κ i (-|d|) {} l
          simp only [empty_conv] at h2
          simp only [Option.map] at h1
          rw [h1, bind_map_side, map_bind_side, habs]
          simp only [h2, Except.map]

end CQ
