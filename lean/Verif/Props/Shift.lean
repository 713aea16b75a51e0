import Verif.Spec.Shift
import Verif.Props.Placement

/-! # C123: moving the part sideways moves the tool path with it -/

namespace CQ

/-! ### Results that may be exceptions -/

theorem map_bind_side {α β γ : Type} (x : Except Err α) (f : α → Except Err β) (g : β → γ) :
    (x >>= f).map g = x >>= fun a => (f a).map g := by
  cases x <;> rfl

theorem bind_map_side {α β γ : Type} (x : Except Err α) (g : α → β) (f : β → Except Err γ) :
    (x.map g >>= f) = x >>= fun a => f (g a) := by
  cases x <;> rfl

theorem mapE_side {α β γ δ : Type} {f : β → Except Err δ} {f' : α → Except Err γ} {σ : α → β} {τ : γ → δ}
    (h : ∀ a, f (σ a) = (f' a).map τ) (l : List α) : mapE f (l.map σ) = (mapE f' l).map (List.map τ) := by
  induction l with
  | nil => rfl
  | cons a l ih =>
    simp only [List.map_cons, mapE, h, ih]
    cases f' a with
    | error e => rfl
    | ok b => cases mapE f' l <;> rfl

/-! ### Single commands -/

theorem side_inj (s : Pt) : Function.Injective (Pt.side s) := by
  intro p q h
  simp only [Pt.side, Pt.mk.injEq, add_left_inj] at h
  exact Pt.ext h.1 h.2

theorem vec_side_inj (s : Pt) : Function.Injective (Vec.side s) := by
  intro p q h
  simp only [Vec.side, Vec.mk.injEq, add_left_inj] at h
  exact Vec.ext h.1 h.2.1 h.2.2

@[simp] theorem fromVec_side (s : Pt) (v : Vec) : AddrVec.fromVec (v.side s) = (AddrVec.fromVec v).side s := rfl

theorem fillEnd_side (s : Pt) (e : AddrVec) (a : Option AddrVec) :
    fillEnd (e.side s) (a.map (AddrVec.side s)) = (fillEnd e a).side s := by
  cases a with
  | none => rfl
  | some a =>
    rcases e with ⟨ex, ey, ez⟩
    cases ex <;> cases ey <;> cases ez <;> rfl

theorem rapidAbs_side (s : Pt) (e a : AddrVec) : rapidAbs (e.side s) (some (a.side s)) = (rapidAbs e (some a)).side s := by
  simp only [rapidAbs, Motion.side, Option.getD, ← fillEnd_side s e (some a), Option.map]; rfl

theorem cutAbs_side (s : Pt) (e a : AddrVec) (f : Option PyNum) :
    cutAbs (e.side s) (some (a.side s)) f = (cutAbs e (some a) f).side s := by
  simp only [cutAbs, Motion.side, Option.getD, ← fillEnd_side s e (some a), Option.map]; rfl

theorem verticalAbs_side (s : Pt) (k : MKind) (z : Option ℚ) (a : AddrVec) (f : Option PyNum) :
    verticalAbs k z (some (a.side s)) f = (verticalAbs k z (some a) f).side s := by
  have h := fillEnd_side s { z := z } (some a)
  simp only [Option.map] at h
  simp only [verticalAbs, Motion.side, Option.getD, ← h]; rfl

@[simp] theorem side_fin (s : Pt) (c : Motion) : (c.side s).fin = c.fin.side s := rfl

@[simp] theorem empty_side (s : Pt) : AddrVec.side s {} = {} := rfl

theorem lastFin_side (s : Pt) (d : AddrVec) (cs : List Motion) :
    lastFin (d.side s) (cs.map (Motion.side s)) = (lastFin d cs).side s := by
  simp only [lastFin, List.getLast?_map]
  cases cs.getLast? <;> rfl

theorem Job.side_fields (s : Pt) (j : Job) : (j.side s).top = j.top ∧ (j.side s).feed = j.feed ∧
    (j.side s).precision = j.precision ∧ (j.side s).rapidHeight = j.rapidHeight ∧ (j.side s).opSafeHeight = j.opSafeHeight ∧
    (j.side s).plungeFeed = j.plungeFeed ∧ (j.side s).toolRadius = j.toolRadius ∧ (j.side s).toolDiameter = j.toolDiameter :=
  ⟨rfl, rfl, rfl, rfl, rfl, rfl, rfl, rfl⟩

theorem rapidTo_side (s : Pt) (a : AddrVec) (e : Vec) (h : ℚ) (p : Option ℚ) (f : Option PyNum) :
    rapidTo (a.side s) (e.side s) h p f = (rapidTo a e h p f).map (Motion.side s) := by
  unfold rapidTo
  simp only [verticalAbs_side, side_fin]
  generalize (verticalAbs .retract (some h) (some a)).fin = b
  generalize verticalAbs .retract (some h) (some a) = c1
  have hx : (b.side s).x ≠ some (e.side s).x ∨ (b.side s).y ≠ some (e.side s).y ↔ b.x ≠ some e.x ∨ b.y ≠ some e.y := by
    rcases b with ⟨bx, bY, bz⟩
    cases bx <;> cases bY <;> simp [AddrVec.side, Vec.side]
  have hr : rapidAbs { x := some (e.side s).x, y := some (e.side s).y } (some (b.side s)) =
      (rapidAbs { x := some e.x, y := some e.y } (some b)).side s := rapidAbs_side s { x := some e.x, y := some e.y } b
  have hz : (e.side s).z = e.z := rfl
  by_cases hc : b.x ≠ some e.x ∨ b.y ≠ some e.y
  · rw [if_pos hc, if_pos (hx.mpr hc), hr]
    simp only [side_fin, verticalAbs_side, hz]
    cases p with
    | none => simp
    | some p => simp only; split <;> simp
  · rw [if_neg hc, if_neg (fun h => hc (hx.mp h))]
    simp only [side_fin, verticalAbs_side, hz]
    cases p with
    | none => simp
    | some p => simp only; split <;> simp

/-! ### The whole program -/

theorem addOther_side (s : Pt) (j : Job) (name : Text) (c : Command) (hc : c.side s = c) :
    (j.side s).addOperation name [c] = (j.addOperation name [c]).side s := by
  simp [Job.side, Job.addOperation, Operation.side, hc]

theorem withSettings_side (s : Pt) (j : Job) (u : Settings) : (j.side s).withSettings u = (j.withSettings u).side s := rfl

theorem updateTool_side (s : Pt) (j : Job) (t : Option Tool) :
    ((j.side s).updateTool t).2 = (j.updateTool t).2.side s ∧ ((j.updateTool t).2).top = j.top := by
  cases t with
  | none => exact ⟨rfl, rfl⟩
  | some t =>
    have hs : (j.side s).settings.inherit (some t) = j.settings.inherit (some t) := rfl
    have h1 := updateTool_some j t
    have h2 := updateTool_some (j.side s) t
    simp only [hs] at h1 h2
    generalize j.settings.inherit (some t) = u at h1 h2
    have hA : needsToolChange (j.side s) u ↔ needsToolChange j u := Iff.rfl
    have hB : needsSpeedChange (j.side s) u ↔ needsSpeedChange j u := Iff.rfl
    rcases h1 with ⟨a, e⟩ | ⟨a, b, e⟩ | ⟨a, b, e⟩ <;> rcases h2 with ⟨a', e'⟩ | ⟨a', b', e'⟩ | ⟨a', b', e'⟩ <;>
      first
      | (exfalso; tauto)
      | (rw [e, e']; exact ⟨rfl, rfl⟩)
      | (rw [e, e']; exact ⟨by rw [addOther_side s j _ _ rfl, withSettings_side]; rfl, rfl⟩)

theorem addOperation_side (s : Pt) (j : Job) (name : Text) (cs : List Motion) :
    (j.side s).addOperation name ((cs.map (Motion.side s)).map .motion) = (j.addOperation name (cs.map .motion)).side s := by
  simp [Job.side, Job.addOperation, Operation.side, Command.side, Function.comp_def]

theorem call_side {s : Pt} {j : Job} {r r' : Request} (h : SideWork s j.top r r') :
    ((j.side s).call r').2 = (j.call r).2.map (Job.side s) ∧ ∀ j', (j.call r).2 = .ok j' → j'.top = j.top := by
  obtain ⟨h1, h2⟩ := updateTool_side s j r.tool
  simp only [Job.call, h.tool, h.name, h.pre j rfl, h1, h.gen _ h2]
  cases hp : r.pre j with
  | error e => exact ⟨rfl, fun j' hj => by cases hj⟩
  | ok _ =>
    cases hg : r.gen (j.updateTool r.tool).2 with
    | error e => exact ⟨rfl, fun j' hj => by cases hj⟩
    | ok cs =>
      refine ⟨?_, fun j' hj => by cases hj; exact h2⟩
      simp only [Except.map, addOperation_side]

theorem chain_side {s : Pt} {rs rs' : List Request} : ∀ {j : Job}, List.Forall₂ (SideWork s j.top) rs rs' →
    (j.side s).chain rs' = (j.chain rs).map (Job.side s) := by
  induction rs generalizing rs' with
  | nil => intro j h; cases h; rfl
  | cons r rs ih =>
    intro j h
    cases h with
    | cons hr hrs =>
      obtain ⟨h1, h2⟩ := call_side hr
      simp only [Job.chain, h1]
      cases hc : (j.call r).2 with
      | error e => rfl
      | ok j' =>
        simp only [Except.map]
        rw [← h2 j' hc] at hrs
        exact ih hrs

/-- C123.  If every call does its work moved by `s`, the chain of calls for the moved part is accepted or refused like the
original one, and its operations are those of the original one with every motion moved by `s`. -/
theorem C123_program {s : Pt} {j : Job} (hj : j.operations = []) {rs rs' : List Request}
    (h : List.Forall₂ (SideWork s j.top) rs rs') : j.chain rs' = (j.chain rs).map (Job.side s) := by
  have e : j.side s = j := by
    simp only [Job.side, hj, List.map_nil]
    rw [← hj]
  rw [← chain_side h, e]

/-! ### Drilling -/

theorem dist2_side (s p q : Pt) : dist2 (Pt.side s p) (Pt.side s q) = dist2 p q := by
  simp only [dist2, Pt.side]; ring

theorem pickNearestFrom_side (s p : Pt) (d : ℚ) (best : Pt) (os : List Pt) :
    pickNearestFrom (Pt.side s p) d (Pt.side s best) (os.map (Pt.side s)) = Pt.side s (pickNearestFrom p d best os) := by
  induction os generalizing d best with
  | nil => rfl
  | cons o os ih =>
    simp only [List.map_cons, pickNearestFrom, dist2_side]
    split <;> exact ih _ _

theorem pickNearest_side (s p : Pt) (os : List Pt) :
    pickNearest (Pt.side s p) (os.map (Pt.side s)) = (pickNearest p os).map (Pt.side s) := by
  cases os with
  | nil => rfl
  | cons o os => simp only [List.map_cons, pickNearest, dist2_side, pickNearestFrom_side, Except.map]

theorem nextHole_side (s : Pt) (last : Option Pt) (ps : List Pt) :
    nextHole (last.map (Pt.side s)) (ps.map (Pt.side s)) = (nextHole last ps).map (Pt.side s) := by
  cases last with
  | some l => exact pickNearest_side s l ps
  | none => cases ps <;> rfl

theorem orderHoles_side (s : Pt) (n : ℕ) (last : Option Pt) (ps : List Pt) :
    orderHoles n (last.map (Pt.side s)) (ps.map (Pt.side s)) = (orderHoles n last ps).map (List.map (Pt.side s)) := by
  induction n generalizing last ps with
  | zero => cases ps <;> rfl
  | succ n ih =>
    cases ps with
    | nil => rfl
    | cons p ps =>
      have h := nextHole_side s last (p :: ps)
      simp only [List.map_cons] at h
      simp only [List.map_cons, orderHoles, h, bind_map_side, map_bind_side]
      congr 1
      funext next
      have he : (Pt.side s p :: ps.map (Pt.side s)).erase (Pt.side s next) = ((p :: ps).erase next).map (Pt.side s) := by
        rw [List.map_erase (side_inj s)]; rfl
      have := ih (some next) ((p :: ps).erase next)
      simp only [Option.map] at this
      rw [he, this, bind_map_side]
      rfl

theorem drillHole_side (s : Pt) (j : Job) (d : ℚ) (pos : AddrVec) (p : Pt) :
    drillHole (j.side s) d (pos.side s) (Pt.side s p) = (drillHole j d pos p).map (Motion.side s) := by
  have h1 : rapidAbs { z := some j.opSafeHeight } (some (pos.side s)) = (rapidAbs { z := some j.opSafeHeight } (some pos)).side s :=
    rapidAbs_side s { z := some j.opSafeHeight } pos
  have h2 (a : AddrVec) : rapidAbs { x := some (Pt.side s p).x, y := some (Pt.side s p).y } (some (a.side s)) =
      (rapidAbs { x := some p.x, y := some p.y } (some a)).side s := rapidAbs_side s { x := some p.x, y := some p.y } a
  have h3 (a : AddrVec) : rapidAbs { z := some 0 } (some (a.side s)) = (rapidAbs { z := some 0 } (some a)).side s :=
    rapidAbs_side s { z := some 0 } a
  simp only [drillHole, Job.side_fields, h1, side_fin, h2, h3, verticalAbs_side, List.map_cons, List.map_nil]

theorem drillHoles_side (s : Pt) (j : Job) (d : ℚ) (pos : AddrVec) (ps : List Pt) :
    drillHoles (j.side s) d (pos.side s) (ps.map (Pt.side s)) = (drillHoles j d pos ps).map (Motion.side s) := by
  induction ps generalizing pos with
  | nil => rfl
  | cons p ps ih => simp only [List.map_cons, drillHoles, drillHole_side, lastFin_side, ih, List.map_append]

theorem slide_translation (t v : Vec) : (Rigid.translation t).point v = t.add v := by
  simp [Rigid.point, Rigid.dir, Rigid.translation, Vec.smul, Vec.add]

theorem toWorld_slide {f : Frame} {s : Pt} (h : DrillsAlong f s) (v : Vec) :
    (⟨(f.toWorld ((f.slide s).point v)).x, (f.toWorld ((f.slide s).point v)).y⟩ : Pt) =
      Pt.side s ⟨(f.toWorld v).x, (f.toWorld v).y⟩ := by
  obtain ⟨h1, h2⟩ := h
  simp only [Frame.slide, slide_translation]
  simp only [Frame.along, Frame.toWorld, Vec.add, Vec.smul, Pt.side] at *
  ext
  · linear_combination h1
  · linear_combination h2

theorem drillVectors_side {center : List Edge → Except Err Vec} {f : Frame} {s : Pt} (hc : CentreMoves (f.slide s) center)
    (h : DrillsAlong f s) (o : DrillObj) :
    (drillVectors center f ((f.slide s).drillObj o)).map (List.map (fun v : Vec => (⟨v.x, v.y⟩ : Pt))) =
      ((drillVectors center f o).map (List.map (fun v : Vec => (⟨v.x, v.y⟩ : Pt)))).map (List.map (Pt.side s)) := by
  cases o with
  | vector v => simp only [Rigid.drillObj, drillVectors, Except.map, List.map_cons, List.map_nil, toWorld_slide h]
  | other => rfl
  | wire w =>
    simp only [Rigid.drillObj, drillVectors, hc w, bind_map_side, map_bind_side]
    simp only [Except.map, List.map_cons, List.map_nil, toWorld_slide h]
  | face w is =>
    simp only [Rigid.drillObj, drillVectors]
    cases is with
    | nil =>
      simp only [List.map_nil, ne_eq, not_true_eq_false, if_false, hc w, bind_map_side, map_bind_side]
      simp only [Except.map, List.map_cons, List.map_nil, toWorld_slide h]
    | cons i is =>
      rw [if_pos (by simp), if_pos (by simp)]
      generalize i :: is = l
      induction l with
      | nil => rfl
      | cons a l ih =>
        simp only [List.map_cons, mapE, hc a, bind_map_side]
        cases center a with
        | error e => rfl
        | ok c =>
          simp only [ok_bind]
          revert ih
          cases mapE (fun w => do
              let c ← center w
              Except.ok (f.toWorld c)) (l.map (List.map (f.slide s).edge)) <;>
            cases mapE (fun w => do
              let c ← center w
              Except.ok (f.toWorld c)) l <;> intro ih <;> simp only [Except.map] at ih ⊢ <;> first | (cases ih; rfl) | cases ih | skip
          injection ih with ih
          simp only [ok_bind, List.map_cons, toWorld_slide h, ih]

theorem mapE_post {α β γ : Type} (f : α → Except Err β) (τ : β → γ) (l : List α) :
    (mapE f l).map (List.map τ) = mapE (fun a => (f a).map τ) l := by
  have := mapE_side (f := fun a => (f a).map τ) (f' := f) (σ := id) (τ := τ) (fun a => rfl) l
  rw [List.map_id] at this
  exact this.symm

/-- C123, for drilling (as far as it holds, see `C123_violated_drill`).  The holes are drilled in the same order, each at its new
place. -/
theorem C123_drill_partial {center : List Edge → Except Err Vec} {f : Frame} {s : Pt} (hc : CentreMoves (f.slide s) center)
    (h : DrillsAlong f s) (o : Option (List DrillObj)) (depth : Option ℚ) (tool : Option Tool) :
    SideWork s f (drillRequest center o depth tool)
      (drillRequest center (o.map (List.map (f.slide s).drillObj)) depth tool) where
  name := rfl
  tool := rfl
  pre := fun _ _ => rfl
  gen := by
    rintro j rfl
    change drill center _ depth (j.side s) = (drill center o depth j).map _
    cases o with
    | none => rfl
    | some objs =>
      cases depth with
      | none => rfl
      | some d =>
        let pt : Vec → Pt := fun v => ⟨v.x, v.y⟩
        have hd : ∀ (i : Job) (os : List DrillObj), drill center (some os) (some d) i =
            ((mapE (drillVectors center i.top) os).map (List.map (List.map pt))) >>= (fun ps =>
              if ps.flatten = [] then .error .operationError
              else orderHoles ps.flatten.length none ps.flatten >>= fun ordered =>
                .ok (drillHoles i (-|d|) {} ordered)) := by
          intro i os
          rw [bind_map_side]
          simp only [← List.map_flatten]
          rfl
        simp only [Option.map, hd, mapE_post, (Job.side_fields s j).1]
        rw [mapE_side (f := fun o => (drillVectors center j.top o).map (List.map pt)) (σ := (j.top.slide s).drillObj) (f' := fun o => (drillVectors center j.top o).map (List.map pt)) (τ := List.map (Pt.side s))
          (drillVectors_side hc h), bind_map_side, map_bind_side]
        congr 1
        funext ps
        rw [← List.map_flatten]
        by_cases hp : ps.flatten = []
        · simp [hp, Except.map]
        · rw [if_neg hp, if_neg (by simpa using hp), List.length_map]
          have h1 := orderHoles_side s ps.flatten.length none ps.flatten
          have h2 := fun l => drillHoles_side s j (-|d|) {} l
          simp only [empty_side] at h2
          simp only [Option.map] at h1
          rw [h1, bind_map_side, map_bind_side]
          simp only [h2, Except.map]

end CQ
