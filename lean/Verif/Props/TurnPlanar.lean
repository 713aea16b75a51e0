import Verif.Props.TurnMachine
import Verif.Model.Placed

/-! # C136 on the machine: the commands of drilling, profiles and pockets -/

namespace CQ

/-- X and Y are both known, or neither. -/
def AddrVec.Pair (a : AddrVec) : Prop := a.x.isSome = a.y.isSome

theorem planar_rapid {e a : AddrVec} (he : e.Pair) (ha : a.Pair) : (rapidAbs e (some a)).Planar := by
  refine ⟨?_, nofun, nofun⟩
  rcases e with ⟨ex, ey, ez⟩
  rcases a with ⟨ax, ay, az⟩
  unfold AddrVec.Pair at he ha
  cases ex <;> cases ey <;> simp at he <;> cases ax <;> cases ay <;> simp at ha <;> rfl

theorem planar_cut {e a : AddrVec} (f : Option PyNum) (he : e.x.isSome = true ∧ e.y.isSome = true) : (cutAbs e (some a) f).Planar := by
  refine ⟨?_, nofun, nofun⟩
  rcases e with ⟨ex, ey, ez⟩
  cases ex <;> cases ey <;> simp at he
  rfl

theorem planar_vertical {k : MKind} (hk : k.isArc = false) (z : Option ℚ) {a : AddrVec} (ha : a.Pair) (f : Option PyNum) :
    (verticalAbs k z (some a) f).Planar := by
  refine ⟨ha, fun h => ?_, fun h => ?_⟩ <;> (simp only [verticalAbs, hk] at h; cases h)

theorem pair_lastFin {a : AddrVec} (ha : a.Pair) {cs : List Motion} (h : ∀ c ∈ cs, c.Planar) : (lastFin a cs).Pair := by
  unfold lastFin
  split
  · rename_i c hc
    exact (h c (List.mem_of_getLast? hc)).fin
  · exact ha

theorem planar_rapidTo {a : AddrVec} (ha : a.Pair) (e : Vec) (h : ℚ) (p : Option ℚ) (f : Option PyNum) :
    ∀ c ∈ rapidTo a e h p f, c.Planar := by
  unfold rapidTo
  have h1 : (verticalAbs .retract (some h) (some a)).Planar := planar_vertical rfl _ ha _
  generalize verticalAbs .retract (some h) (some a) = c1 at h1
  have h2 : (rapidAbs { x := some e.x, y := some e.y } (some c1.fin)).Planar := planar_rapid rfl h1.fin
  have key : ∀ b : AddrVec, b.Pair → ∀ c ∈ (match p with
      | none => [verticalAbs .plungeCut (some e.z) (some b) f]
      | some h => if h > e.z then [verticalAbs .plungeRapid (some h) (some b),
          verticalAbs .plungeCut (some e.z) (some (verticalAbs .plungeRapid (some h) (some b)).fin) f]
        else [verticalAbs .plungeRapid (some h) (some b)] : List Motion), c.Planar := by
    intro b hb c hc
    cases p with
    | none =>
      rw [List.mem_singleton] at hc
      subst hc
      exact planar_vertical rfl _ hb _
    | some h =>
      have h3 : (verticalAbs .plungeRapid (some h) (some b)).Planar := planar_vertical rfl _ hb _
      simp only at hc
      split at hc
      · simp only [List.mem_cons, List.not_mem_nil, or_false] at hc
        rcases hc with rfl | rfl
        · exact h3
        · exact planar_vertical rfl _ h3.fin _
      · rw [List.mem_singleton] at hc
        subst hc
        exact h3
  intro c hc
  by_cases hx : c1.fin.x ≠ some e.x ∨ c1.fin.y ≠ some e.y
  · simp only [if_pos hx] at hc
    rcases List.mem_append.mp hc with hc | hc
    · simp only [List.cons_append, List.nil_append, List.mem_cons, List.not_mem_nil, or_false] at hc
      rcases hc with rfl | rfl
      · exact h1
      · exact h2
    · exact key _ h2.fin c hc
  · simp only [if_neg hx] at hc
    rcases List.mem_append.mp hc with hc | hc
    · simp only [List.append_nil, List.mem_singleton] at hc
      subst hc
      exact h1
    · exact key _ h1.fin c hc

/-! ### Drilling -/

theorem planar_drillHoles (j : Job) (d : ℚ) {pos : AddrVec} (hp : pos.Pair) (ps : List Pt) : ∀ c ∈ drillHoles j d pos ps, c.Planar := by
  induction ps generalizing pos with
  | nil => intro c hc; cases hc
  | cons p ps ih =>
    have h1 : (rapidAbs { z := some j.opSafeHeight } (some pos)).Planar := planar_rapid rfl hp
    have h2 : (rapidAbs { x := some p.x, y := some p.y } (some (rapidAbs { z := some j.opSafeHeight } (some pos)).fin)).Planar :=
      planar_rapid rfl h1.fin
    have h3 := planar_rapid (e := { z := some 0 }) rfl h2.fin
    have h : ∀ c ∈ drillHole j d pos p, c.Planar := by
      intro c hc
      simp only [drillHole, List.mem_cons, List.not_mem_nil, or_false] at hc
      rcases hc with rfl | rfl | rfl | rfl
      · exact h1
      · exact h2
      · exact h3
      · exact planar_vertical rfl _ h3.fin _
    intro c hc
    simp only [drillHoles] at hc
    rcases List.mem_append.mp hc with hc | hc
    · exact h c hc
    · exact ih (pair_lastFin hp h) c hc

theorem planar_drill (center : List Edge → Except Err Vec) (o : Option (List DrillObj)) (depth : Option ℚ) (tool : Option Tool)
    (j : Job) (cs : List Motion) (h : (drillRequest center o depth tool).gen j = .ok cs) : ∀ c ∈ cs, c.Planar := by
  change drill center o depth j = .ok cs at h
  cases o with
  | none => cases h
  | some objs =>
    cases depth with
    | none => cases h
    | some d =>
      simp only [drill] at h
      obtain ⟨vs, -, h⟩ := bind_ok.mp h
      split at h
      · cases h
      · obtain ⟨ps, -, h⟩ := bind_ok.mp h
        injection h with h
        subst h
        exact planar_drillHoles j _ (pos := {}) rfl ps

/-! ### Profiles -/

theorem planar_cutsThrough (f : Option PyNum) (pos : AddrVec) (vs : List Vec) : ∀ c ∈ cutsThroughPoints f pos vs, c.Planar := by
  induction vs generalizing pos with
  | nil => intro c hc; cases hc
  | cons v vs ih =>
    intro c hc
    simp only [cutsThroughPoints, List.mem_cons] at hc
    rcases hc with rfl | hc
    · exact planar_cut f ⟨rfl, rfl⟩
    · exact ih _ c hc

theorem planar_routeEdge {veq : Vec → Vec → Bool} {e : Edge} {n : ℕ} {p q : Option ℚ} {f : Option PyNum} {x : List Motion × Vec}
    (h : routeEdge veq e n p q f = .ok x) : ∀ c ∈ x.1, c.Planar := by
  have harc : ∀ cs, routeArc veq e p q f = .ok cs → ∀ c ∈ cs, c.Planar := by
    intro cs h c hc
    unfold routeArc at h
    simp only at h
    split at h
    · cases h
    · rename_i b hb
      split at h
      · injection h with h
        subst h
        simp only [List.mem_cons, List.not_mem_nil, or_false] at hc
        rcases hc with rfl | rfl <;> exact ⟨rfl, fun _ => ⟨rfl, rfl⟩, fun _ => ⟨rfl, rfl⟩⟩
      · split at h
        · injection h with h
          subst h
          rw [List.mem_singleton] at hc
          subst hc
          exact planar_cut f ⟨rfl, rfl⟩
        · injection h with h
          subst h
          rw [List.mem_singleton] at hc
          subst hc
          exact ⟨rfl, fun _ => ⟨rfl, rfl⟩, fun _ => ⟨rfl, rfl⟩⟩
  unfold routeEdge at h
  simp only at h
  split at h
  · injection h with h
    subst h
    intro c hc
    rw [List.mem_singleton] at hc
    subst hc
    exact planar_cut f ⟨rfl, rfl⟩
  · split at h
    · cases h
    · rename_i cs hcs
      injection h with h
      subst h
      exact harc cs hcs
  · split at h
    · cases h
    · rename_i cs hcs
      injection h with h
      subst h
      exact harc cs hcs
  · injection h with h
    subst h
    exact planar_cutsThrough _ _ _
  · injection h with h
    subst h
    exact planar_cutsThrough _ _ _
  · injection h with h
    subst h
    exact planar_cutsThrough _ _ _
  · cases h

theorem planar_routeEdges {veq : Vec → Vec → Bool} {j : Job} {fin : Vec} {es : List Edge} {x : List Motion × Vec}
    (h : routeEdges veq j fin es = .ok x) : ∀ c ∈ x.1, c.Planar := by
  induction es generalizing fin x with
  | nil => cases h; intro c hc; cases hc
  | cons e es ih =>
    simp only [routeEdges] at h
    split at h
    · cases h
    · rename_i cs fin1 h1
      split at h
      · cases h
      · rename_i ds fin2 h2
        cases h
        intro c hc
        rcases List.mem_append.mp hc with hc | hc
        · exact planar_routeEdge h1 c hc
        · exact ih h2 c hc

theorem planar_routeWire {veq : Vec → Vec → Bool} {j : Job} {stepover : Option ℚ} {hit : Option WireHit} {pos : AddrVec}
    (hp : pos.Pair) {es : List Edge} {x : List Motion × Vec} (h : routeWire veq j stepover hit pos es = .ok x) : ∀ c ∈ x.1, c.Planar := by
  unfold routeWire at h
  split at h
  · cases h
  · cases h
  · rename_i e es' approach he
    have ha : ∀ c ∈ approach, c.Planar := by
      unfold enterWire at he
      split at he
      · split at he
        · cases he
        · split at he
          · cases he
          · cases he
            intro c hc
            rw [List.mem_singleton] at hc
            subst hc
            exact planar_cut _ ⟨rfl, rfl⟩
      · split at he
        · cases he
        · cases he
          exact planar_rapidTo hp _ _ _ _
    simp only at h
    split at h
    · cases h
    · rename_i first fin h1
      have p1 := planar_routeEdge h1
      split at h
      · cases h
      · rename_i rest fin2 h2
        have p2 := planar_routeEdges h2
        have p3 : ∀ c ∈ approach ++ first ++ rest, c.Planar := by
          intro c hc
          simp only [List.mem_append] at hc
          rcases hc with (hc | hc) | hc
          · exact ha c hc
          · exact p1 c hc
          · exact p2 c hc
        split at h
        · cases h; exact p3
        · split at h
          · cases h; exact p3
          · split at h
            · cases h
            · rename_i last fin3 h3
              cases h
              intro c hc
              rcases List.mem_append.mp hc with hc | hc
              · exact p3 c hc
              · exact planar_routeEdge h3 c hc

theorem planar_routeWires {veq : Vec → Vec → Bool} {search : Vec → List Edge → Option WireHit} {j : Job} {ws : List (List Edge)}
    {stepover : Option ℚ} {cs : List Motion} (h : routeWires veq search j ws stepover = .ok cs) : ∀ c ∈ cs, c.Planar := by
  unfold routeWires at h
  have key : ∀ (ws : List (List Edge)) (acc : List Motion) (pwe : Option Vec) (pos : AddrVec), pos.Pair → (∀ c ∈ acc, c.Planar) →
      routeWiresFrom veq search j stepover acc pwe pos ws = .ok cs → ∀ c ∈ cs, c.Planar := by
    clear h
    intro ws
    induction ws with
    | nil => intro acc pwe pos _ ha h; cases h; exact ha
    | cons w ws ih =>
      intro acc pwe pos hp ha h
      cases w with
      | nil => cases h; intro c hc; cases hc
      | cons e es =>
        simp only [routeWiresFrom] at h
        split at h
        · cases h
        · rename_i ds fin hr
          have hd := planar_routeWire hp hr
          refine ih _ _ _ (pair_lastFin hp hd) ?_ h
          intro c hc
          rcases List.mem_append.mp hc with hc | hc
          · exact ha c hc
          · exact hd c hc
  exact key ws [] none {} rfl (fun c hc => by cases hc) h

theorem planar_profiles {cad : Cad} {j : Job} {offset : ℚ} {stepdown : Option ℚ} {tabs : Option Tabs} {ws : List (List Edge)}
    {cs : List Motion} (h : profiles cad j offset stepdown tabs ws = .ok cs) : ∀ c ∈ cs, c.Planar := by
  simp only [profiles] at h
  obtain ⟨css, h1, h2⟩ := bind_ok.mp h
  injection h2 with h2
  subst h2
  intro c hc
  obtain ⟨l, hl, hc⟩ := List.mem_flatten.mp hc
  obtain ⟨w, -, hw⟩ := mapE_mem h1 hl
  unfold profile at hw
  obtain ⟨ws, -, hr⟩ := bind_ok.mp hw
  exact planar_routeWires hr c hc

theorem planar_profile (cad : Cad) (shapes : List Shape) (outerOffset innerOffset stepdown : Option ℚ) (tabs : Option Tabs)
    (tool : Option Tool) (j : Job) (cs : List Motion)
    (h : (profileRequest cad shapes outerOffset innerOffset stepdown tabs tool).gen j = .ok cs) : ∀ c ∈ cs, c.Planar := by
  have hopt : ∀ (o : Option ℚ) (ws : List (List Edge)) (ds : List Motion), profilesOpt cad j o stepdown tabs ws = .ok ds →
      ∀ c ∈ ds, c.Planar := by
    intro o ws ds hd
    cases o with
    | none => cases hd; intro c hc; cases hc
    | some o => exact planar_profiles hd
  rw [profileRequest_gen] at h
  obtain ⟨x, -, h⟩ := bind_ok.mp h
  obtain ⟨a, ha, h⟩ := bind_ok.mp h
  obtain ⟨b, hb, h⟩ := bind_ok.mp h
  cases h
  intro c hc
  rcases List.mem_append.mp hc with hc | hc
  · exact hopt _ _ _ ha c hc
  · exact hopt _ _ _ hb c hc

theorem planar_wire_profile (cad : Cad) (wires : List (List Edge)) (offset : ℚ) (stepdown : Option ℚ) (tabs : Option Tabs)
    (tool : Option Tool) (j : Job) (cs : List Motion)
    (h : (wireProfileRequest cad wires offset stepdown tabs tool).gen j = .ok cs) : ∀ c ∈ cs, c.Planar := planar_profiles h

/-! ### Pockets -/

theorem planar_cutsTo (j : Job) (d : ℚ) (pos : AddrVec) (ps : List Pt) : ∀ c ∈ cutsTo j d pos ps, c.Planar := by
  induction ps generalizing pos with
  | nil => intro c hc; cases hc
  | cons p ps ih =>
    intro c hc
    simp only [cutsTo, List.mem_cons] at hc
    rcases hc with rfl | hc
    · exact planar_cut _ ⟨rfl, rfl⟩
    · exact ih _ c hc

theorem planar_routeFace {j : Job} {stepover : Option ℚ} {pwe : Option Pt} {pos : AddrVec} (hp : pos.Pair) {f : PathFace}
    {x : List Motion × Option Pt} (h : routeFace j stepover pwe pos f = .ok x) : ∀ c ∈ x.1, c.Planar := by
  unfold routeFace at h
  split at h
  · cases h
  · rename_i p0 ps hf
    split at h
    · cases h
    · rename_i nearest hn
      have ha : ∀ c ∈ (match shortLink stepover nearest with
          | some n => [cutTo j f.depth pos n.point]
          | none => rapidTo pos ⟨p0.x, p0.y, f.depth⟩ j.rapidHeight (some j.opSafeHeight) (some j.plungeFeed) : List Motion), c.Planar := by
        split
        · intro c hc
          rw [List.mem_singleton] at hc
          subst hc
          exact planar_cut _ ⟨rfl, rfl⟩
        · exact planar_rapidTo hp _ _ _ _
      simp only at h
      split at h
      · cases h
        intro c hc
        simp only [List.mem_append, List.mem_singleton] at hc
        rcases hc with (hc | hc) | rfl
        · exact ha c hc
        · exact planar_cutsTo _ _ _ _ c hc
        · exact planar_cut _ ⟨rfl, rfl⟩
      · cases h
        intro c hc
        rcases List.mem_append.mp hc with hc | hc
        · exact ha c hc
        · exact planar_cutsTo _ _ _ _ c hc

theorem planar_routeFaces {j : Job} {stepover : Option ℚ} {pwe : Option Pt} {pos : AddrVec} (hp : pos.Pair) {fs : List PathFace}
    {cs : List Motion} (h : routeFaces j stepover pwe pos fs = .ok cs) : ∀ c ∈ cs, c.Planar := by
  induction fs generalizing pwe pos cs with
  | nil => cases h; intro c hc; cases hc
  | cons f fs ih =>
    simp only [routeFaces] at h
    split at h
    · cases h
    · rename_i ds pwe' h1
      have hd := planar_routeFace hp h1
      split at h
      · cases h
      · rename_i rest h2
        cases h
        intro c hc
        rcases List.mem_append.mp hc with hc | hc
        · exact hd c hc
        · exact ih (pair_lastFin hp hd) h2 c hc

theorem planar_routeSequences {j : Job} {stepover : ℚ} {acc : List Motion} {pos : AddrVec} (hp : pos.Pair)
    (ha : ∀ c ∈ acc, c.Planar) {ss : List (List PathFace)} {cs : List Motion}
    (h : routeSequences j stepover acc pos ss = .ok cs) : ∀ c ∈ cs, c.Planar := by
  induction ss generalizing acc pos with
  | nil => cases h; exact ha
  | cons l ss ih =>
    simp only [routeSequences] at h
    obtain ⟨ds, h1, h⟩ := bind_ok.mp h
    have hd : ∀ c ∈ ds, c.Planar := planar_routeFaces (pos := pos) hp h1
    have hall : ∀ c ∈ acc ++ ds, c.Planar := by
      intro c hc
      rcases List.mem_append.mp hc with hc | hc
      · exact ha c hc
      · exact hd c hc
    split at h
    · cases h
    · rename_i cmd hcmd
      exact ih (hall cmd (List.mem_of_getLast? hcmd)).fin hall h

theorem planar_pocket (eng : Clipper) (veq : Vec → Vec → Bool) (box : List Edge → List (List Edge) → ℚ × ℚ) (fuel : ℕ)
    (opAreas avoidAreas : List WorldFace) (a : PocketArgs) (tool : Option Tool) (j : Job) (cs : List Motion)
    (h : (pocketPlacedRequest eng veq box fuel opAreas avoidAreas a tool).gen j = .ok cs) : ∀ c ∈ cs, c.Planar := by
  change pocket eng veq fuel _ _ a j = .ok cs at h
  unfold pocket at h
  split at h
  · cases h
  · obtain ⟨x, -, h⟩ := bind_ok.mp h
    obtain ⟨y, -, h⟩ := bind_ok.mp h
    unfold pocketClipper at h
    obtain ⟨x1, -, h⟩ := bind_ok.mp h
    obtain ⟨x2, -, h⟩ := bind_ok.mp h
    obtain ⟨x3, -, h⟩ := bind_ok.mp h
    obtain ⟨x4, -, h⟩ := bind_ok.mp h
    exact planar_routeSequences (pos := {}) rfl (fun c hc => by cases hc) h

end CQ
