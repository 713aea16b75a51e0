import Verif.Spec.Drill
import Verif.Proofs.Except
import Verif.Proofs.Routers

/-! # C52-C55: drilling -/

namespace CQ

/-! ### the order of the holes -/

theorem pickNearestFrom_spec (p : Pt) (os : List Pt) (best : Pt) :
    let r := pickNearestFrom p (dist2 p best) best os
    r ∈ best :: os ∧ ∀ q ∈ best :: os, sqDist p r ≤ sqDist p q := by
  induction os generalizing best with
  | nil => simp [pickNearestFrom]
  | cons o os ih =>
    simp only [pickNearestFrom]
    by_cases h : dist2 p o < dist2 p best
    · rw [if_pos h]
      obtain ⟨h1, h2⟩ := ih o
      refine ⟨by simp only [List.mem_cons] at h1 ⊢; tauto, ?_⟩
      intro q hq
      rw [List.mem_cons] at hq
      rcases hq with rfl | hq
      · have := h2 o (by simp)
        rw [dist2_eq, dist2_eq] at h
        linarith
      · exact h2 q hq
    · rw [if_neg h]
      obtain ⟨h1, h2⟩ := ih best
      refine ⟨by simp only [List.mem_cons] at h1 ⊢; tauto, ?_⟩
      intro q hq
      simp only [List.mem_cons] at hq
      rcases hq with rfl | rfl | hq
      · exact h2 _ (by simp)
      · have := h2 best (by simp)
        rw [dist2_eq, dist2_eq] at h
        linarith
      · exact h2 q (by simp [hq])

theorem nextHole_spec {last : Option Pt} {ps : List Pt} {r : Pt} (h : nextHole last ps = .ok r) :
    r ∈ ps ∧ (last = none → ps.head? = some r) ∧ ∀ l, last = some l → ∀ q ∈ ps, sqDist l r ≤ sqDist l q := by
  cases last with
  | none =>
    cases ps with
    | nil => cases h
    | cons p ps => cases h; simp
  | some l =>
    cases ps with
    | nil => cases h
    | cons p ps =>
      have hr : pickNearestFrom l (dist2 l p) p ps = r := Except.ok.inj h
      have := pickNearestFrom_spec l ps p
      rw [hr] at this
      exact ⟨this.1, by simp, fun l' hl => by cases hl; exact this.2⟩

theorem nextHole_total (last : Option Pt) (p : Pt) (ps : List Pt) : ∃ r, nextHole last (p :: ps) = .ok r := by
  cases last with
  | none => exact ⟨_, rfl⟩
  | some l => exact ⟨_, rfl⟩

/-- The loop ends within as many rounds as there are holes. -/
theorem orderHoles_total (n : ℕ) (last : Option Pt) (ps : List Pt) (h : ps.length ≤ n) :
    ∃ os, orderHoles n last ps = .ok os := by
  induction n generalizing last ps with
  | zero =>
    cases ps with
    | nil => exact ⟨[], rfl⟩
    | cons p ps => simp at h
  | succ n ih =>
    cases ps with
    | nil => exact ⟨[], rfl⟩
    | cons p ps =>
      obtain ⟨r, hr⟩ := nextHole_total last p ps
      have hmem := (nextHole_spec hr).1
      obtain ⟨os, ho⟩ := ih (some r) ((p :: ps).erase r) (by
        rw [List.length_erase_of_mem hmem]; simp at h ⊢; exact h)
      exact ⟨r :: os, by simp only [orderHoles]; rw [hr, ok_bind, ho, ok_bind]⟩

theorem orderHoles_spec {n : ℕ} {last : Option Pt} {ps os : List Pt} (h : orderHoles n last ps = .ok os) :
    os.Perm ps ∧ (last = none → os.head? = ps.head?) ∧
      (∀ l o, last = some l → os.head? = some o → ∀ q ∈ ps, sqDist l o ≤ sqDist l q) ∧ NearestOrder os := by
  induction n generalizing last ps os with
  | zero =>
    cases ps with
    | nil => cases h; simp [NearestOrder]
    | cons p ps => cases h
  | succ n ih =>
    cases ps with
    | nil => cases h; simp [NearestOrder]
    | cons p ps =>
      simp only [orderHoles] at h
      obtain ⟨r, hr, h⟩ := bind_ok.mp h
      obtain ⟨rest, h1, h⟩ := bind_ok.mp h
      cases h
      obtain ⟨hm, hn, hl⟩ := nextHole_spec hr
      obtain ⟨i1, -, i3, i4⟩ := ih h1
      refine ⟨(i1.cons r).trans (List.perm_cons_erase hm).symm, fun h => by rw [hn h]; rfl, ?_, ?_⟩
      · intro l o h ho
        cases ho
        exact hl l h
      · intro pre a b post he q hq
        cases pre with
        | nil =>
          cases he
          exact i3 _ b rfl rfl q (i1.mem_iff.mp hq)
        | cons x pre =>
          cases he
          exact i4 pre a b post rfl q hq

/-! ### the moves -/

theorem drillHole_moves (j : Job) (depth : ℚ) (pos : AddrVec) (p : Pt) :
    HoleMoves j.opSafeHeight depth j.feed pos p (drillHole j depth pos p) :=
  ⟨_, _, _, _, rfl, ⟨rfl, rfl, rfl⟩, ⟨rfl, rfl, rfl⟩, ⟨rfl, rfl, rfl⟩, rfl, rfl, rfl, rfl⟩

theorem drillHoles_moves (j : Job) (depth : ℚ) (pos : AddrVec) (ps : List Pt) :
    HolesMoves j.opSafeHeight depth j.feed pos ps (drillHoles j depth pos ps) := by
  induction ps generalizing pos with
  | nil => rfl
  | cons p ps ih => exact ⟨_, _, rfl, drillHole_moves j depth pos p, ih _⟩

theorem holesMoves_worked {sh depth : ℚ} {feed : PyNum} {pos : AddrVec} {ps : List Pt} {cs : List Motion}
    (h : HolesMoves sh depth feed pos ps cs) : workedAt cs = ps.map (fun p => (some p.x, some p.y)) := by
  induction ps generalizing pos cs with
  | nil => rw [show cs = [] from h]; rfl
  | cons p ps ih =>
    obtain ⟨a, b, rfl, ⟨u, s, d, f, rfl, hu, hs, hd, hf⟩, hb⟩ := h
    have := ih hb
    unfold workedAt at this ⊢
    rw [List.filter_append, List.map_append, this]
    simp [hu.1, hs.1, hd.1, hf.1, hf.2.2.1, Pt.at]

/-! ### what is drilled -/

theorem drillVectors_spec {center : List Edge → Except Err Vec} {top : Frame} {o : DrillObj} {vs : List Vec}
    (h : drillVectors center top o = .ok vs) : ∃ cs, HoleCentres center o cs ∧ vs = cs.map top.toWorld := by
  cases o with
  | vector v => cases h; exact ⟨[v], rfl, rfl⟩
  | wire w =>
    obtain ⟨c, h1, h⟩ := bind_ok.mp h
    cases h
    exact ⟨[c], ⟨c, h1, rfl⟩, rfl⟩
  | face outer inners =>
    cases inners with
    | nil =>
      simp only [drillVectors, ne_eq, not_true_eq_false, if_false] at h
      obtain ⟨c, h1, h⟩ := bind_ok.mp h
      cases h
      exact ⟨[c], ⟨c, h1, rfl⟩, rfl⟩
    | cons i is =>
      rw [drillVectors, if_pos (by simp), mapE_ok] at h
      have : ∀ {ws : List (List Edge)} {vs : List Vec}, List.Forall₂ (fun w v => (do
          let c ← center w
          Except.ok (top.toWorld c)) = Except.ok v) ws vs →
          ∃ cs, List.Forall₂ (fun w c => center w = .ok c) ws cs ∧ vs = cs.map top.toWorld := by
        intro ws vs h
        induction h with
        | nil => exact ⟨[], .nil, rfl⟩
        | cons h1 _ ih =>
          obtain ⟨c, h2, h3⟩ := bind_ok.mp h1
          cases h3
          obtain ⟨cs, h4, rfl⟩ := ih
          exact ⟨c :: cs, .cons h2 h4, rfl⟩
      obtain ⟨cs, h1, h2⟩ := this h
      exact ⟨cs, h1, h2⟩
  | other => cases h

theorem drillVectors_total {center : List Edge → Except Err Vec} {top : Frame} {o : DrillObj} {cs : List Vec}
    (h : HoleCentres center o cs) : drillVectors center top o = .ok (cs.map top.toWorld) := by
  cases o with
  | vector v => rw [show cs = [v] from h]; rfl
  | wire w =>
    obtain ⟨c, h1, rfl⟩ := h
    simp only [drillVectors]; rw [h1, ok_bind]; rfl
  | face outer inners =>
    cases inners with
    | nil =>
      obtain ⟨c, h1, rfl⟩ := h
      simp only [drillVectors, ne_eq, not_true_eq_false, if_false]
      rw [h1, ok_bind]; rfl
    | cons i is =>
      rw [drillVectors, if_pos (by simp), mapE_ok]
      have key : ∀ {ws : List (List Edge)} {cs : List Vec}, List.Forall₂ (fun w c => center w = .ok c) ws cs →
          List.Forall₂ (fun w v => (do
            let c ← center w
            Except.ok (top.toWorld c)) = Except.ok v) ws (cs.map top.toWorld) := by
        intro ws cs h
        induction h with
        | nil => exact .nil
        | cons h1 _ ih => exact .cons (by rw [h1, ok_bind]) ih
      exact key h
  | other => cases h

theorem drill_ok {center : List Edge → Except Err Vec} {objs : List DrillObj} {d : ℚ} {j : Job} {cs : List Motion}
    (h : drill center (some objs) (some d) j = .ok cs) :
    ∃ centres ps, List.Forall₂ (HoleCentres center) objs centres ∧
      ps.Perm (centres.flatten.map (fun v => (j.top.toWorld v).xy)) ∧
      ps.head? = (centres.flatten.map (fun v => (j.top.toWorld v).xy)).head? ∧ ps ≠ [] ∧
      NearestOrder ps ∧ cs = drillHoles j (-|d|) {} ps := by
  simp only [drill] at h
  obtain ⟨vss, h1, h'⟩ := bind_ok.mp h
  clear h
  have : ∃ centres, List.Forall₂ (HoleCentres center) objs centres ∧
      vss.flatten = centres.flatten.map j.top.toWorld := by
    rw [mapE_ok] at h1
    clear h'
    induction h1 with
    | nil => exact ⟨[], .nil, rfl⟩
    | cons h2 _ ih =>
      obtain ⟨cs, h3, rfl⟩ := drillVectors_spec h2
      obtain ⟨css, h4, h5⟩ := ih
      exact ⟨cs :: css, .cons h3 h4, by simp [h5]⟩
  obtain ⟨centres, hc, hf⟩ := this
  rw [hf, List.map_map] at h'
  split at h'
  · cases h'
  · rename_i hne
    obtain ⟨ps, ho, h⟩ := bind_ok.mp h'
    cases h
    obtain ⟨o1, o2, -, o4⟩ := orderHoles_spec ho
    refine ⟨centres, ps, hc, o1, o2 rfl, ?_, o4, rfl⟩
    rintro rfl
    exact hne (List.nil_perm.mp o1)

/-! ### C52 -/

/-- C52.  The tool goes into the material exactly at the requested positions, each as often as it was requested, in some
order.  (Which position of the machine belongs to a requested point is the subject of C55.) -/
theorem C52_each_hole_once {center : List Edge → Except Err Vec} {objs : List DrillObj} {d : ℚ} {j : Job}
    {cs : List Motion} (h : drill center (some objs) (some d) j = .ok cs) :
    ∃ centres, List.Forall₂ (HoleCentres center) objs centres ∧
      (workedAt cs).Perm (centres.flatten.map (fun v => (some (j.top.toWorld v).x, some (j.top.toWorld v).y))) := by
  obtain ⟨centres, ps, h1, h2, -, -, -, rfl⟩ := drill_ok h
  refine ⟨centres, h1, ?_⟩
  rw [holesMoves_worked (drillHoles_moves j _ _ ps)]
  have := h2.map (fun p => (some p.x, some p.y))
  rwa [List.map_map] at this

/-- C52.  Drilling is refused exactly if the objects or the depth are missing, there is no hole at all, or an object is of
an unsupported kind or has no centre. -/
theorem C52_accepted (center : List Edge → Except Err Vec) (o : Option (List DrillObj)) (depth : Option ℚ) (j : Job) :
    (∃ cs, drill center o depth j = .ok cs) ↔ ∃ objs d centres, o = some objs ∧ depth = some d ∧
      List.Forall₂ (HoleCentres center) objs centres ∧ centres.flatten ≠ [] := by
  constructor
  · rintro ⟨cs, h⟩
    cases o with
    | none => cases h
    | some objs =>
      cases depth with
      | none => cases h
      | some d =>
        obtain ⟨centres, ps, h1, h2, -, hne, -, -⟩ := drill_ok h
        refine ⟨objs, d, centres, rfl, rfl, h1, ?_⟩
        intro hf
        rw [hf] at h2
        exact hne h2.eq_nil
  · rintro ⟨objs, d, centres, rfl, rfl, h, hne⟩
    have h1 : mapE (drillVectors center j.top) objs = .ok (centres.map (List.map j.top.toWorld)) := by
      rw [mapE_ok]
      clear hne
      induction h with
      | nil => exact .nil
      | cons h1 _ ih => exact .cons (drillVectors_total h1) ih
    simp only [drill]
    rw [h1, ok_bind, if_neg]
    · obtain ⟨os, ho⟩ := orderHoles_total (((centres.map (List.map j.top.toWorld)).flatten.map
        (fun v => (⟨v.x, v.y⟩ : Pt))).length) none _ le_rfl
      exact ⟨_, by rw [ho, ok_bind]⟩
    · rw [List.map_eq_nil_iff, ← List.map_flatten, List.map_eq_nil_iff]
      exact hne

/-- An exception of a list comes from one of its elements. -/
theorem mapE_exception {α β : Type} {f : α → Except Err β} {as : List α} {x : Err} (h : mapE f as = .error x) :
    ∃ a ∈ as, f a = .error x := by
  induction as with
  | nil => cases h
  | cons a as ih =>
    cases ha : f a with
    | error y =>
      simp only [mapE, ha] at h
      cases h
      exact ⟨a, by simp, ha⟩
    | ok b =>
      simp only [mapE, ha, ok_bind] at h
      cases hr : mapE f as with
      | error y =>
        rw [hr] at h
        cases h
        obtain ⟨a', h1, h2⟩ := ih hr
        exact ⟨a', by simp [h1], h2⟩
      | ok bs => rw [hr] at h; cases h

/-- C52: the exception of a refused call is the documented `OperationError`, or the kernel's own for a wire of the request
whose centre it cannot find. -/
theorem C52_exception {center : List Edge → Except Err Vec} {o : Option (List DrillObj)} {depth : Option ℚ} {j : Job} {x : Err}
    (h : drill center o depth j = .error x) :
    x = .operationError ∨ ∃ objs, o = some objs ∧ ∃ w, center w = .error x ∧
      (DrillObj.wire w ∈ objs ∨ DrillObj.face w [] ∈ objs ∨ ∃ outer inners, DrillObj.face outer inners ∈ objs ∧ w ∈ inners) := by
  cases o with
  | none => cases h; exact Or.inl rfl
  | some objs =>
    cases depth with
    | none => cases h; exact Or.inl rfl
    | some d =>
      simp only [drill] at h
      cases hm : mapE (drillVectors center j.top) objs with
      | error y =>
        rw [hm] at h
        cases h
        obtain ⟨ob, hob, he⟩ := mapE_exception hm
        cases ob with
        | vector v => cases he
        | other => cases he; exact Or.inl rfl
        | wire w =>
          right
          refine ⟨objs, rfl, w, ?_, Or.inl hob⟩
          simp only [drillVectors] at he
          cases hc : center w with
          | error z => rw [hc] at he; cases he; rfl
          | ok c => rw [hc] at he; cases he
        | face outer inners =>
          right
          cases inners with
          | nil =>
            refine ⟨objs, rfl, outer, ?_, Or.inr (Or.inl hob)⟩
            simp only [drillVectors, ne_eq, not_true_eq_false, if_false] at he
            cases hc : center outer with
            | error z => rw [hc] at he; cases he; rfl
            | ok c => rw [hc] at he; cases he
          | cons i is =>
            rw [drillVectors, if_pos (by simp)] at he
            obtain ⟨w, hw, he⟩ := mapE_exception he
            refine ⟨objs, rfl, w, ?_, Or.inr (Or.inr ⟨outer, i :: is, hob, hw⟩)⟩
            cases hc : center w with
            | error z => rw [hc] at he; cases he; rfl
            | ok c => rw [hc] at he; cases he
      | ok vs =>
        rw [hm, ok_bind] at h
        split at h
        · cases h; exact Or.inl rfl
        · obtain ⟨os, ho⟩ := orderHoles_total (vs.flatten.map (fun v => (⟨v.x, v.y⟩ : Pt))).length none _ le_rfl
          rw [ho] at h
          cases h

/-! ### C53 -/

/-- C53.  The first hole is the first one requested, and each hole is followed by one of the nearest among the holes that
are left. -/
theorem C53_nearest_order {center : List Edge → Except Err Vec} {objs : List DrillObj} {d : ℚ} {j : Job}
    {cs : List Motion} (h : drill center (some objs) (some d) j = .ok cs) :
    ∃ centres ps, List.Forall₂ (HoleCentres center) objs centres ∧
      workedAt cs = ps.map (fun p : Pt => (some p.x, some p.y)) ∧
      ps.Perm (centres.flatten.map (fun v => (j.top.toWorld v).xy)) ∧
      ps.head? = (centres.flatten.map (fun v => (j.top.toWorld v).xy)).head? ∧ NearestOrder ps := by
  obtain ⟨centres, ps, h1, h2, h3, -, h4, rfl⟩ := drill_ok h
  exact ⟨centres, ps, h1, holesMoves_worked (drillHoles_moves j _ _ ps), h2, h3, h4⟩

/-! ### C54 -/

theorem holesMoves_safe {sh depth : ℚ} {feed : PyNum} {pos : AddrVec} {ps : List Pt} {cs : List Motion}
    (h : HolesMoves sh depth feed pos ps cs) :
    Connected pos cs ∧ (∀ c ∈ cs, Lateral c → c.kind.mot = .rapid ∧ c.start.z = some sh ∧ c.fin.z = some sh) ∧
      (∀ c ∈ cs, c.kind.mot ≠ .rapid → c.kind.mot = .linear ∧ ¬ Lateral c ∧ c.start.z = some 0 ∧
        c.fin.z = some depth ∧ c.feed = some feed) ∧
      (∀ c ∈ cs, c.kind.mot = .rapid → c.fin.z = some sh ∨ c.fin.z = some 0) := by
  induction ps generalizing pos cs with
  | nil => rw [show cs = [] from h]; simp [Connected]
  | cons p ps ih =>
    obtain ⟨a, b, rfl, ⟨u, s, d, f, rfl, ⟨u1, u2, u3⟩, ⟨s1, s2, s3⟩, ⟨d1, d2, d3⟩, ⟨f1, f2, f3, f4⟩⟩, hb⟩ := h
    obtain ⟨i1, i2, i3, i4⟩ := ih hb
    refine ⟨?_, ?_, ?_, ?_⟩
    · simp [Connected, u2, u3, s2, s3, d2, d3, f2, f3, i1]
    all_goals
      intro c hc
      simp only [List.mem_append, List.mem_cons, List.not_mem_nil, or_false] at hc
      rcases hc with (rfl | rfl | rfl | rfl) | hc
    · intro h; exact absurd h (by simp [Lateral, u2, u3])
    · intro _; exact ⟨s1, by rw [s2], by rw [s3]; rfl⟩
    · intro h; exact absurd h (by simp [Lateral, d2, d3, Pt.at])
    · intro h; exact absurd h (by simp [Lateral, f2, f3, Pt.at])
    · exact i2 c hc
    · intro h; exact absurd u1 h
    · intro h; exact absurd s1 h
    · intro h; exact absurd d1 h
    · intro _; exact ⟨f1, by simp [Lateral, f2, f3, Pt.at], by rw [f2]; rfl, by rw [f3]; rfl, f4⟩
    · exact i3 c hc
    · intro _; left; rw [u3]
    · intro _; left; rw [s3]; rfl
    · intro _; right; rw [d3]; rfl
    · intro h; rw [f1] at h; cases h
    · exact i4 c hc

/-- C54.  Every move starts where the previous one ended; X and Y only change in rapids at the operation-safe height; feed
moves go straight down from the surface to the negative absolute depth with the job's feed; rapids end at the
operation-safe height or on the surface, and no move ends below the depth (if the operation-safe height is not). -/
theorem C54_safe_motion {center : List Edge → Except Err Vec} {objs : List DrillObj} {d : ℚ} {j : Job}
    {cs : List Motion} (h : drill center (some objs) (some d) j = .ok cs) :
    Connected {} cs ∧
      (∀ c ∈ cs, Lateral c → c.kind.mot = .rapid ∧ c.start.z = some j.opSafeHeight ∧ c.fin.z = some j.opSafeHeight) ∧
      (∀ c ∈ cs, c.kind.mot ≠ .rapid → c.kind.mot = .linear ∧ ¬ Lateral c ∧ c.start.z = some 0 ∧
        c.fin.z = some (-|d|) ∧ c.feed = some j.feed) ∧
      (∀ c ∈ cs, c.kind.mot = .rapid → c.fin.z = some j.opSafeHeight ∨ c.fin.z = some 0) ∧
      (0 ≤ j.opSafeHeight → ∀ c ∈ cs, ∃ z, c.fin.z = some z ∧ -|d| ≤ z) := by
  obtain ⟨centres, ps, -, -, -, -, -, rfl⟩ := drill_ok h
  obtain ⟨h1, h2, h3, h4⟩ := holesMoves_safe (drillHoles_moves j (-|d|) {} ps)
  refine ⟨h1, h2, h3, h4, fun hs c hc => ?_⟩
  have hd : -|d| ≤ 0 := by simp
  by_cases hr : c.kind.mot = .rapid
  · rcases h4 c hc hr with h | h
    · exact ⟨_, h, hd.trans hs⟩
    · exact ⟨_, h, hd⟩
  · exact ⟨_, (h3 c hc hr).2.2.2.1, le_rfl⟩

/-- C54.  The exact course: for each hole four moves. -/
theorem C54_course {center : List Edge → Except Err Vec} {objs : List DrillObj} {d : ℚ} {j : Job} {cs : List Motion}
    (h : drill center (some objs) (some d) j = .ok cs) :
    ∃ ps, ps ≠ [] ∧ workedAt cs = ps.map (fun p : Pt => (some p.x, some p.y)) ∧
      HolesMoves j.opSafeHeight (-|d|) j.feed {} ps cs := by
  obtain ⟨centres, ps, -, -, -, hne, -, rfl⟩ := drill_ok h
  exact ⟨ps, hne, holesMoves_worked (drillHoles_moves j _ _ ps), drillHoles_moves j _ _ ps⟩

/-! ### C55 -/

/-- C55.  The position the drill goes to for a point (`toWorldCoords`) is the point's position in the job's coordinate
system for all points if and only if the matrix of the plane is symmetric (for example: axes parallel to the world's) and
the X and Y of the origin satisfy two equations (for parallel axes: both are 0). -/
theorem C55_exact_partial (f : Frame) :
    (∀ v, (f.toWorld v).xy = (f.toLocal v).xy) ↔
      (f.yDir.x = f.xDir.y ∧ f.zDir.x = f.xDir.z ∧ f.zDir.y = f.yDir.z) ∧
        f.origin.x = -f.origin.dot f.xDir ∧ f.origin.y = -f.origin.dot f.yDir := by
  obtain ⟨⟨ox, oy, oz⟩, ⟨a, b, c⟩, ⟨d, e, g⟩, ⟨k, l, m⟩⟩ := f
  simp only [Frame.toWorld, Frame.toLocal, Vec.xy, Vec.add, Vec.sub, Vec.smul, Vec.dot]
  constructor
  · intro h
    have h0 := h ⟨0, 0, 0⟩
    have h1 := h ⟨1, 0, 0⟩
    have h2 := h ⟨0, 1, 0⟩
    have h3 := h ⟨0, 0, 1⟩
    simp only [Pt.mk.injEq] at h0 h1 h2 h3
    refine ⟨⟨?_, ?_, ?_⟩, ?_, ?_⟩ <;> linarith [h0.1, h0.2, h1.1, h1.2, h2.1, h2.2, h3.1, h3.2]
  · rintro ⟨⟨h1, h2, h3⟩, h4, h5⟩ ⟨x, y, z⟩
    subst h1 h2 h3
    simp only [Pt.mk.injEq]
    constructor
    · linarith
    · linarith

/-- C55.  For such planes the holes are drilled at the positions of the features in the job's coordinate system, which is
how the other operations place theirs. -/
theorem C55_partial {center : List Edge → Except Err Vec} {objs : List DrillObj} {d : ℚ} {j : Job} {cs : List Motion}
    (h : drill center (some objs) (some d) j = .ok cs)
    (hs : j.top.yDir.x = j.top.xDir.y ∧ j.top.zDir.x = j.top.xDir.z ∧ j.top.zDir.y = j.top.yDir.z)
    (ho : j.top.origin.x = -j.top.origin.dot j.top.xDir ∧ j.top.origin.y = -j.top.origin.dot j.top.yDir) :
    ∃ centres, List.Forall₂ (HoleCentres center) objs centres ∧
      (workedAt cs).Perm (centres.flatten.map (fun v => (some (j.top.toLocal v).x, some (j.top.toLocal v).y))) := by
  obtain ⟨centres, h1, h2⟩ := C52_each_hole_once h
  refine ⟨centres, h1, ?_⟩
  have key := (C55_exact_partial j.top).mpr ⟨hs, ho⟩
  have : (fun v => (some (j.top.toWorld v).x, some (j.top.toWorld v).y)) =
      (fun v => (some (j.top.toLocal v).x, some (j.top.toLocal v).y)) := by
    funext v
    have := key v
    simp only [Vec.xy, Pt.mk.injEq] at this
    rw [this.1, this.2]
  rwa [this] at h2

/-! ### examples -/

/-- A job whose plane is the top face of a box, and one whose origin is at a corner. -/
def drillJob (origin : Vec) : Job :=
  Job.init { Frame.xy with origin := origin } (.int 200) none none none

def drillCenter : List Edge → Except Err Vec
  | [] => .error .valueError
  | e :: _ => .ok e.center

/-- Three points, one of them twice. -/
def drillObjs : List DrillObj := [.vector ⟨0, 0, 0⟩, .vector ⟨10, 0, 0⟩, .vector ⟨2, 1, 0⟩, .vector ⟨10, 0, 0⟩]

example : (match drill drillCenter (some drillObjs) (some 3) (drillJob ⟨0, 0, 5⟩) with
    | .ok cs => decide (workedAt cs = [(some 0, some 0), (some 2, some 1), (some 10, some 0), (some 10, some 0)])
    | .error _ => false) = true := by decide +kernel

/-- The hypotheses of C52-C55 hold for this job. -/
example : (∃ cs, drill drillCenter (some drillObjs) (some 3) (drillJob ⟨0, 0, 5⟩) = .ok cs) ∧
    (drillJob ⟨0, 0, 5⟩).top.yDir.x = (drillJob ⟨0, 0, 5⟩).top.xDir.y ∧
    (drillJob ⟨0, 0, 5⟩).top.origin.x = -(drillJob ⟨0, 0, 5⟩).top.origin.dot (drillJob ⟨0, 0, 5⟩).top.xDir := by
  refine ⟨?_, rfl, by decide +kernel⟩
  rw [C52_accepted]
  exact ⟨_, 3, [[⟨0, 0, 0⟩], [⟨10, 0, 0⟩], [⟨2, 1, 0⟩], [⟨10, 0, 0⟩]], rfl, rfl,
    .cons rfl (.cons rfl (.cons rfl (.cons rfl .nil))), by simp⟩

/-- The sign of the depth does not matter. -/
example : drill drillCenter (some drillObjs) (some 3) (drillJob ⟨0, 0, 5⟩) =
    drill drillCenter (some drillObjs) (some (-3)) (drillJob ⟨0, 0, 5⟩) := by
  simp [drill]

/-- C55 fails: with the origin of the job at the corner (10, 0) of the stock, the point (10, 0), which is at X0 in the
job's coordinate system, is drilled at X20. -/
theorem C55_violated :
    ∃ (j : Job) (v : Vec) (cs : List Motion), drill drillCenter (some [.vector v]) (some 1) j = .ok cs ∧
      (j.top.toLocal v).xy = ⟨0, 0⟩ ∧ workedAt cs = [(some 20, some 0)] := by
  have h : (match drill drillCenter (some [.vector ⟨10, 0, 0⟩]) (some 1) (drillJob ⟨10, 0, 0⟩) with
      | .ok cs => decide (workedAt cs = [(some 20, some 0)])
      | .error _ => false) = true := by decide +kernel
  cases hd : drill drillCenter (some [.vector ⟨10, 0, 0⟩]) (some 1) (drillJob ⟨10, 0, 0⟩) with
  | error e => rw [hd] at h; cases h
  | ok cs =>
    rw [hd] at h
    exact ⟨_, _, cs, hd, by decide +kernel, of_decide_eq_true h⟩

end CQ
