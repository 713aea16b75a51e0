import Verif.Spec.Circle
import Verif.Props.ReachExample

/-! # C110: the offset of a circle lies around the circle, wherever that is placed -/

namespace CQ

theorem still_point (v : Vec) : Rigid.still.point v = v := by
  simp [Rigid.still, Rigid.translation, Rigid.point, Rigid.dir, Vec.add, Vec.smul]

theorem still_dir (v : Vec) : Rigid.still.dir v = v := by
  simp [Rigid.still, Rigid.translation, Rigid.dir, Vec.add, Vec.smul]

theorem still_edge (e : Edge) : Rigid.still.edge e = e := by
  simp [Rigid.edge, still_point, still_dir]

theorem still_undoes : Undoes Rigid.still Rigid.still := fun v => ⟨by rw [still_point, still_point], by rw [still_dir, still_dir]⟩

theorem undoes_edge {h g : Rigid} (hu : Undoes h g) (e : Edge) : h.edge (g.edge e) = e := by
  simp [Rigid.edge, (hu _).1, (hu _).2]

theorem tryOffset_ok {cad : Cad} {w : List Edge} {o : ℚ} {ws : List (List Edge)} (h : tryOffset cad w o = .ok ws) :
    ws = [] ∨ ∃ o', (o' = o ∨ o' = o + 1 / 1000000) ∧ cad.offset2D w o' = .ok ws := by
  unfold tryOffset at h
  split at h
  · split at h
    · cases h; exact .inl rfl
    · exact .inr ⟨_, .inr rfl, h⟩
  · exact .inr ⟨_, .inl rfl, h⟩

/-- The workaround, when it is given the circle itself, puts everything right: the curves it returns are the right ones. -/
theorem C110_workaround {cad : Cad} {loc : List Edge → Rigid} {right : List Edge → ℚ → List (List Edge)} (hloc : Relocates cad loc)
    (hf : CircleFault cad loc right) {w : List Edge} (hw : OneLoop cad w) {h : Rigid} (hu : Undoes h (loc w)) {o : ℚ}
    {ws : List (List Edge)} (ho : cad.offset2D w o = .ok ws) : circleBugWorkaround cad w ws = right w o := by
  obtain ⟨h1, h2⟩ := hf w o ws hw ho
  obtain ⟨e, rfl, he⟩ := hw
  simp only [circleBugWorkaround, he, if_true]
  have : ws.map (cad.relocate [e]) = ws.map (List.map h.edge) := by
    refine List.map_congr_left (fun t ht => ?_)
    rw [hloc [e] t h Rigid.still hu (by rw [h2 t ht]; exact still_undoes)]
    simp [still_edge]
  rw [this, h1, List.map_map]
  refine (List.map_congr_left (fun t _ => ?_)).trans (List.map_id _)
  simp only [Function.comp, List.map_map, id]
  exact (List.map_congr_left (fun e _ => undoes_edge hu e)).trans (List.map_id _)

/-- C110 is false for every circle that has a location: the function hands its last result to the workaround instead of the circle, so that
nothing is put right.  Each of the curves it returns is a right one moved by the location of the circle once more. -/
theorem C110_displaced {cad : Cad} {loc : List Edge → Rigid} {right : List Edge → ℚ → List (List Edge)} (hloc : Relocates cad loc)
    (hf : CircleFault cad loc right) {w : List Edge} (hw : OneLoop cad w) {o : ℚ} {res : List (List Edge)}
    (h : offsetWire cad w o = .ok res) :
    ∀ t ∈ res, ∃ o', (o' = o ∨ o' = o + 1 / 1000000) ∧ ∃ r ∈ right w o', t = r.map (loc w).edge := by
  obtain ⟨ws, h1, h2⟩ := bind_ok.mp h
  cases h2
  rcases tryOffset_ok h1 with rfl | ⟨o', ho, h3⟩
  · intro t ht
    obtain ⟨e, rfl, he⟩ := hw
    simp [circleBugWorkaround] at ht
  obtain ⟨h4, h5⟩ := hf w o' ws hw h3
  have hall : circleBugWorkaround cad (ws.getLast?.getD w) (ws.filter (offsetValid cad)) = ws.filter (offsetValid cad) := by
    cases hl : ws.getLast? with
    | none => rw [List.getLast?_eq_none_iff.mp hl]; simp [circleBugWorkaround]; split <;> simp
    | some l =>
      have hlm : l ∈ ws := List.mem_of_getLast? hl
      simp only [Option.getD_some]
      unfold circleBugWorkaround
      split
      · split
        · refine (List.map_congr_left (fun t ht => ?_)).trans (List.map_id _)
          rw [hloc _ t Rigid.still Rigid.still (by rw [h5 _ hlm]; exact still_undoes)
            (by rw [h5 t (List.mem_filter.mp ht).1]; exact still_undoes)]
          simp [still_edge]
        · rfl
      · rfl
  intro t ht
  rw [hall] at ht
  have := (List.mem_filter.mp ht).1
  rw [h4] at this
  obtain ⟨r, hr, rfl⟩ := List.mem_map.mp this
  exact ⟨o', ho, r, hr, rfl⟩

/-- C110, as far as it holds: a circle without a location is offset rightly. -/
theorem C110_partial {cad : Cad} {loc : List Edge → Rigid} {right : List Edge → ℚ → List (List Edge)} (hloc : Relocates cad loc)
    (hf : CircleFault cad loc right) {w : List Edge} (hw : OneLoop cad w) (hplace : loc w = Rigid.still) {o : ℚ}
    {res : List (List Edge)} (h : offsetWire cad w o = .ok res) :
    ∀ t ∈ res, ∃ o', (o' = o ∨ o' = o + 1 / 1000000) ∧ t ∈ right w o' := by
  intro t ht
  obtain ⟨o', ho, r, hr, rfl⟩ := C110_displaced hloc hf hw h t ht
  refine ⟨o', ho, ?_⟩
  rw [hplace, (List.map_congr_left (fun e _ => still_edge e)).trans (List.map_id _)]
  exact hr

/-! ### A circle that is milled in the wrong place -/

/-- Points on the circle of radius `r` around `(x, 0)`, one unit below the top: once around for `p` from 0 to 4. -/
def discAt (x r p : ℚ) : Vec :=
  if p ≤ 2 then ⟨x + r * (((2 - p) ^ 2 - p ^ 2) / ((2 - p) ^ 2 + p ^ 2)), r * (2 * p * (2 - p) / ((2 - p) ^ 2 + p ^ 2)), -1⟩
  else ⟨x - r * (((4 - p) ^ 2 - (p - 2) ^ 2) / ((4 - p) ^ 2 + (p - 2) ^ 2)), -(r * (2 * (p - 2) * (4 - p) / ((4 - p) ^ 2 + (p - 2) ^ 2))), -1⟩

/-- This circle as an edge. -/
def disc (id : ℕ) (x r : ℚ) : Edge where
  id := id
  geom := .circle
  startPoint := ⟨x + r, 0, -1⟩
  endPoint := ⟨x + r, 0, -1⟩
  posParam := discAt x r
  posLen := fun d => discAt x r (4 * d)
  paramAt := fun d => 4 * d
  closed := true
  center := ⟨x, 0, -1⟩
  length := r * 44 / 7

/-- Circles with number 0 have been made at the origin and then placed. -/
def discLoc : List Edge → Rigid
  | [e] => if e.id = 0 then Rigid.translation ⟨e.center.x, 0, 0⟩ else Rigid.still
  | _ => Rigid.still

def discBack : List Edge → Rigid
  | [e] => if e.id = 0 then Rigid.translation ⟨-e.center.x, 0, 0⟩ else Rigid.still
  | _ => Rigid.still

/-- The circle around the same point with a radius larger by `o`. -/
def discRight : List Edge → ℚ → List (List Edge)
  | [e], o => [[disc 1 e.center.x (e.startPoint.x - e.center.x + o)]]
  | _, _ => []

/-- A kernel with the fault. -/
def discCad : Cad := { flatCad with
  offset2D := fun w o => .ok ((discRight w o).map (List.map (discLoc w).edge))
  relocate := fun src tgt => tgt.map (fun e => (discBack src).edge ((discBack tgt).edge e)) }

theorem translation_point (a v : Vec) : (Rigid.translation a).point v = ⟨a.x + v.x, a.y + v.y, a.z + v.z⟩ := by
  simp [Rigid.translation, Rigid.point, Rigid.dir, Vec.add, Vec.smul]

theorem translation_dir (a v : Vec) : (Rigid.translation a).dir v = v := by
  simp [Rigid.translation, Rigid.dir, Vec.add, Vec.smul]

theorem undoes_unique {h k g : Rigid} (hu : Undoes h g) (hp : ∀ v, g.point (k.point v) = v)
    (hd : ∀ v, g.dir (k.dir v) = v) : h.edge = k.edge := by
  have h1 : ∀ v, h.point v = k.point v := fun v => by
    have := (hu (k.point v)).1
    rwa [hp] at this
  have h2 : ∀ v, h.dir v = k.dir v := fun v => by
    have := (hu (k.dir v)).2
    rwa [hd] at this
  funext e
  simp [Rigid.edge, h1, h2]

theorem discBack_undoes (w : List Edge) : Undoes (discBack w) (discLoc w) ∧ (∀ v, (discLoc w).point ((discBack w).point v) = v) ∧
    ∀ v, (discLoc w).dir ((discBack w).dir v) = v := by
  have hs : Undoes Rigid.still Rigid.still ∧ (∀ v, Rigid.still.point (Rigid.still.point v) = v) ∧
    ∀ v, Rigid.still.dir (Rigid.still.dir v) = v := ⟨still_undoes, fun v => (still_undoes v).1, fun v => (still_undoes v).2⟩
  unfold discBack discLoc
  split
  · split
    · refine ⟨fun v => ⟨?_, ?_⟩, fun v => ?_, fun v => ?_⟩ <;> simp [translation_point, translation_dir]
    · exact hs
  · exact hs

theorem disc_relocates : Relocates discCad discLoc := by
  intro src tgt h k hh hk
  change tgt.map (fun e => (discBack src).edge ((discBack tgt).edge e)) = _
  rw [undoes_unique hh (discBack_undoes src).2.1 (discBack_undoes src).2.2,
    undoes_unique hk (discBack_undoes tgt).2.1 (discBack_undoes tgt).2.2]

theorem disc_fault : CircleFault discCad discLoc discRight := by
  rintro w o ws ⟨e, rfl, -⟩ h
  cases h
  refine ⟨rfl, ?_⟩
  intro t ht
  simp only [discRight, List.map_cons, List.map_nil, List.mem_singleton] at ht
  subst ht
  simp [discLoc, Rigid.edge, disc]

/-- The circle around `(10, 0)` meets the hypotheses of `C110_workaround` and `C110_displaced`; its offset curve is returned around `(20, 0)`. -/
example : Relocates discCad discLoc ∧ CircleFault discCad discLoc discRight ∧ OneLoop discCad [disc 0 10 1] ∧
    (∃ h, Undoes h (discLoc [disc 0 10 1])) ∧ (∃ ws, discCad.offset2D [disc 0 10 1] 1 = .ok ws ∧
      circleBugWorkaround discCad [disc 0 10 1] ws = [[disc 1 10 2]]) ∧
    ∃ res, offsetWire discCad [disc 0 10 1] 1 = .ok res ∧ res.map (List.map Edge.center) = [[⟨20, 0, -1⟩]] := by
  have hw : OneLoop discCad [disc 0 10 1] := ⟨_, rfl, by decide +kernel⟩
  have hr : discRight [disc 0 10 1] 1 = [[disc 1 10 2]] := by norm_num [discRight, disc]
  refine ⟨disc_relocates, disc_fault, hw, ⟨_, (discBack_undoes _).1⟩,
    ⟨_, rfl, (C110_workaround disc_relocates disc_fault hw (discBack_undoes _).1 rfl).trans hr⟩, _, rfl, by decide +kernel⟩

/-- The circle around the origin meets those of `C110_partial`. -/
example : OneLoop discCad [disc 0 0 1] ∧ discLoc [disc 0 0 1] = Rigid.still ∧
    ∃ res, offsetWire discCad [disc 0 0 1] 1 = .ok res ∧ res ≠ [] :=
  ⟨⟨_, rfl, by decide +kernel⟩, rfl, _, rfl, by decide +kernel⟩

/-- A feed move ends at `x ≥ 18`. -/
def farOut (e : Event) : Bool :=
  match e.act with
  | .move .rapid _ _ => true
  | .move _ tgt _ => match tgt.x with | some x => decide (18 ≤ x) | none => false
  | _ => true

theorem farOut_move {e : Event} (h : farOut e = true) {k : Mot} {tgt ctr : Pos} (ha : e.act = .move k tgt ctr) (hk : k ≠ .rapid) :
    ∃ x, tgt.x = some x ∧ 18 ≤ x := by
  unfold farOut at h
  rw [ha] at h
  cases hx : tgt.x with
  | none => cases k <;> simp_all
  | some x => cases k <;> simp_all

/-- The circle of radius 1 around `(10, 0)`, to be cut with a tool of radius 1 on the outside, so along the circle of radius 2 around
`(10, 0)`: with a kernel that has the fault, the machine cuts at `x ≥ 18` only. -/
theorem C110_violated : Relocates discCad discLoc ∧ CircleFault discCad discLoc discRight ∧ OneLoop discCad [disc 0 10 1] ∧
    discRight [disc 0 10 1] 1 = [[disc 1 10 2]] ∧
    ∃ j2 t m' evs, (twoJob.call (wireProfileRequest discCad [[disc 0 10 1]] 1 none none none)).2 = .ok j2 ∧ j2.toGcode = .ok t ∧
      runText {} t = some (m', evs) ∧ (∃ e ∈ evs, isFeedMove e = true) ∧
      ∀ e ∈ evs, ∀ k tgt ctr, e.act = .move k tgt ctr → k ≠ .rapid → ∃ x, tgt.x = some x ∧ 18 ≤ x := by
  refine ⟨disc_relocates, disc_fault, ⟨_, rfl, by decide +kernel⟩, by norm_num [discRight, disc], ?_⟩
  obtain ⟨j2, t, m', evs, h1, h2, h3, hall, hany⟩ := run_all (j := twoJob) (r := wireProfileRequest discCad [[disc 0 10 1]] 1 none none none)
    (good := farOut) twoJob_ok (by rintro v ⟨⟩) rfl rfl (by unfold SafeName; decide) (by decide +kernel)
  exact ⟨j2, t, m', evs, h1, h2, h3, hany, fun e he k tgt ctr ha hk => farOut_move (hall e he) ha hk⟩

end CQ
