import Verif.Spec.Heights
import Verif.Props.Feeds
import Verif.Props.PocketPath
import Verif.Props.OnePass

/-! # C126: rapid and safe heights do not change what is cut -/

namespace CQ

theorem SameCut.refl (c : Motion) : SameCut c c := ⟨rfl, rfl, rfl, rfl, rfl, rfl, rfl, fun _ => rfl⟩

theorem SameCuts.refl (cs : List Motion) : SameCuts cs cs := List.forall₂_same.mpr (fun c _ => SameCut.refl c)

theorem SameCuts.append {a a' b b' : List Motion} (h : SameCuts a a') (k : SameCuts b b') : SameCuts (a ++ b) (a' ++ b') := by
  unfold SameCuts at *
  rw [List.filter_append, List.filter_append]
  exact List.rel_append h k

theorem SameCuts.flatten {a a' : List (List Motion)} (h : List.Forall₂ SameCuts a a') : SameCuts a.flatten a'.flatten := by
  induction h with
  | nil => exact .nil
  | cons h _ ih => exact h.append ih

theorem Alike.ok_left {α β : Type} {R : α → β → Prop} {x : Except Err α} {y : Except Err β} (h : Alike R x y) {a : α} (hx : x = .ok a) :
    ∃ b, y = .ok b ∧ R a b := by
  subst hx
  cases y with
  | error e => exact h.elim
  | ok b => exact ⟨b, rfl, h⟩

theorem Alike.error_left {α β : Type} {R : α → β → Prop} {x : Except Err α} {y : Except Err β} (h : Alike R x y) {e : Err}
    (hx : x = .error e) : y = .error e := by
  subst hx
  cases y with
  | error e' => cases h; rfl
  | ok b => exact h.elim

theorem Alike.bind {α β γ δ : Type} {R : α → β → Prop} {S : γ → δ → Prop} {x : Except Err α} {y : Except Err β}
    {f : α → Except Err γ} {g : β → Except Err δ} (h : Alike R x y) (k : ∀ a b, x = .ok a → R a b → Alike S (f a) (g b)) :
    Alike S (x >>= f) (y >>= g) := by
  cases hx : x with
  | error e => rw [h.error_left hx]; rfl
  | ok a =>
    obtain ⟨b, hy, hr⟩ := h.ok_left hx
    rw [hy]
    exact k a b hx hr

theorem Alike.mapE {α β γ : Type} {S : β → γ → Prop} {f : α → Except Err β} {g : α → Except Err γ} {l : List α}
    (h : ∀ a ∈ l, Alike S (f a) (g a)) : Alike (List.Forall₂ S) (mapE f l) (mapE g l) := by
  induction l with
  | nil => exact .nil
  | cons a l ih =>
    have ha := h a (by simp)
    have il := ih (fun b hb => h b (by simp [hb]))
    simp only [CQ.mapE]
    refine ha.bind (fun b c _ hbc => il.bind (fun bs cs _ hbcs => ?_))
    exact List.Forall₂.cons hbc hbcs

/-! ### Approaches -/

/-- The one feed move of an approach is the plunge from the safe height above the target, from wherever the tool comes. -/
theorem rapidTo_worked (pos : AddrVec) {e : Vec} (R : ℚ) {S : ℚ} (h : e.z < S) (pf : Option PyNum) :
    (rapidTo pos e R (some S) pf).filter (fun c => c.kind.isFeed) =
      [verticalAbs .plungeCut (some e.z) (some ⟨some e.x, some e.y, some S⟩) pf] ∧
    ∀ d, lastFin d (rapidTo pos e R (some S) pf) = AddrVec.fromVec e := by
  unfold rapidTo
  dsimp only
  rw [if_pos h]
  by_cases hc : pos.x = some e.x ∧ pos.y = some e.y
  · have h1 : ¬ ((verticalAbs .retract (some R) (some pos)).fin.x ≠ some e.x ∨ (verticalAbs .retract (some R) (some pos)).fin.y ≠ some e.y) := by
      simp [verticalAbs, fillEnd, hc.1, hc.2]
    rw [if_neg h1]
    refine ⟨?_, fun d => ?_⟩
    · simp only [verticalAbs, List.nil_append, List.cons_append, List.append_nil, List.filter, MKind.isFeed]
      simp [fillEnd, hc.1, hc.2]
    · simp [lastFin, verticalAbs, fillEnd, hc.1, hc.2, AddrVec.fromVec]
  · have h1 : (verticalAbs .retract (some R) (some pos)).fin.x ≠ some e.x ∨ (verticalAbs .retract (some R) (some pos)).fin.y ≠ some e.y := by
      simpa [verticalAbs, fillEnd, imp_iff_not_or] using hc
    rw [if_pos h1]
    refine ⟨?_, fun d => ?_⟩
    · simp only [verticalAbs, rapidAbs, List.nil_append, List.cons_append, List.filter, MKind.isFeed]
      simp [fillEnd]
    · simp [lastFin, verticalAbs, rapidAbs, fillEnd, AddrVec.fromVec]

theorem rapidTo_heights (pos pos' : AddrVec) {e : Vec} {R R' S S' : ℚ} (h : e.z < S) (h' : e.z < S') (pf : Option PyNum) :
    SameCuts (rapidTo pos e R (some S) pf) (rapidTo pos' e R' (some S') pf) ∧
      (∀ d, lastFin d (rapidTo pos e R (some S) pf) = AddrVec.fromVec e) ∧
      ∀ d, lastFin d (rapidTo pos' e R' (some S') pf) = AddrVec.fromVec e := by
  obtain ⟨a1, a2⟩ := rapidTo_worked pos R h pf
  obtain ⟨b1, b2⟩ := rapidTo_worked pos' R' h' pf
  refine ⟨?_, a2, b2⟩
  unfold SameCuts
  rw [a1, b1]
  exact .cons ⟨rfl, rfl, rfl, rfl, rfl, rfl, rfl, fun h => (h rfl).elim⟩ .nil

theorem cutsTo_heights (j : Job) (R S d : ℚ) (old : List Operation) (pos : AddrVec) (ps : List Pt) :
    cutsTo (j.atHeights R S old) d pos ps = cutsTo j d pos ps := by
  induction ps generalizing pos with
  | nil => rfl
  | cons p ps ih =>
    simp only [cutsTo]
    rw [ih]
    rfl

theorem lastFin_ne {cs : List Motion} (h : cs ≠ []) (a b : AddrVec) : lastFin a cs = lastFin b cs := by
  unfold lastFin
  cases hl : cs.getLast? with
  | none => exact (h (List.getLast?_eq_none_iff.mp hl)).elim
  | some c => rfl

theorem lastFin_join (d : AddrVec) (a b : List Motion) : lastFin d (a ++ b) = lastFin (lastFin d a) b := by
  unfold lastFin
  rw [List.getLast?_append]
  cases b.getLast? with
  | none => rfl
  | some c => rfl

/-- Positions that agree as soon as there is a contour before. -/
def Near (pwe : Option Pt) (pos pos' : AddrVec) : Prop := pwe ≠ none → pos' = pos

theorem Near.same {pwe : Option Pt} (pos : AddrVec) : Near pwe pos pos := fun _ => rfl

theorem routeFace_heights {j : Job} {R S : ℚ} {old : List Operation} {so : Option ℚ} {pwe : Option Pt} {pos pos' : AddrVec} {f : PathFace}
    (hp : Near pwe pos pos') (h : f.depth < j.opSafeHeight) (h' : f.depth < S) :
    Alike (fun x y : List Motion × Option Pt => SameCuts x.1 y.1 ∧ y.2 = x.2 ∧ ∀ d d', lastFin d' y.1 = lastFin d x.1)
      (routeFace j so pwe pos f) (routeFace (j.atHeights R S old) so pwe pos' f) := by
  unfold routeFace
  cases hf : f.outer with
  | nil => rfl
  | cons p0 ps =>
    simp only
    cases hn : nearestTo pwe (p0 :: ps) with
    | error e => rfl
    | ok nearest =>
      simp only
      cases hl : shortLink so nearest with
      | some n =>
        have hpw : pwe ≠ none := by
          rintro rfl
          cases hn
          cases so <;> cases hl
        rw [hp hpw]
        simp only [cutsTo_heights]
        cases nearest with
        | none => cases so <;> cases hl
        | some m => exact ⟨SameCuts.refl _, rfl, fun d d' => lastFin_ne (by simp) _ _⟩
      | none =>
        obtain ⟨h1, a2, a3⟩ := rapidTo_heights (R := j.rapidHeight) (R' := R) pos pos' (e := ⟨p0.x, p0.y, f.depth⟩) h h' (some j.plungeFeed)
        simp only [cutsTo_heights]
        simp only [Job.atHeights]
        rw [a2, a3]
        generalize cutsTo j f.depth (AddrVec.fromVec ⟨p0.x, p0.y, f.depth⟩) (p0 :: ps).tail = cuts
        have h3 : ∀ d d', lastFin d' (rapidTo pos' ⟨p0.x, p0.y, f.depth⟩ R (some S) (some j.plungeFeed) ++ cuts) =
            lastFin d (rapidTo pos ⟨p0.x, p0.y, f.depth⟩ j.rapidHeight (some j.opSafeHeight) (some j.plungeFeed) ++ cuts) := by
          intro d d'
          rw [lastFin_join, lastFin_join, a2, a3]
        cases nearest with
        | none => exact ⟨h1.append (SameCuts.refl _), rfl, h3⟩
        | some m =>
          refine ⟨(h1.append (SameCuts.refl _)).append ?_, rfl, fun d d' => ?_⟩
          · rw [h3 pos pos']
            exact SameCuts.refl _
          · simp only
            rw [lastFin_join _ (_ ++ cuts), lastFin_join _ (_ ++ cuts), h3 pos pos', h3 d d']
            rfl

theorem routeFaces_heights {j : Job} {R S : ℚ} {old : List Operation} {so : Option ℚ} {fs : List PathFace} :
    ∀ {pwe : Option Pt} {pos pos' : AddrVec}, Near pwe pos pos' → (∀ f ∈ fs, f.depth < j.opSafeHeight ∧ f.depth < S) →
    Alike (fun x y => SameCuts x y ∧ (fs ≠ [] → ∀ d d', lastFin d' y = lastFin d x)) (routeFaces j so pwe pos fs)
      (routeFaces (j.atHeights R S old) so pwe pos' fs) := by
  induction fs with
  | nil => intro _ _ _ _ _; exact ⟨SameCuts.refl _, fun h => (h rfl).elim⟩
  | cons f fs ih =>
    intro pwe pos pos' hp hf
    have h1 := routeFace_heights (R := R) (old := old) (so := so) hp (hf f (by simp)).1 (hf f (by simp)).2
    simp only [routeFaces]
    cases hx : routeFace j so pwe pos f with
    | error e => rw [h1.error_left hx]; rfl
    | ok x =>
      obtain ⟨y, hy, a1, a2, a3⟩ := h1.ok_left hx
      obtain ⟨cs, p⟩ := x
      obtain ⟨cs', p'⟩ := y
      simp only at a1 a2 a3
      rw [hy]
      simp only
      rw [a2, a3 pos pos']
      have h2 := ih (pwe := p) (Near.same (lastFin pos cs)) (fun g hg => hf g (by simp [hg]))
      cases hr : routeFaces j so p (lastFin pos cs) fs with
      | error e => rw [h2.error_left hr]; rfl
      | ok rest =>
        obtain ⟨rest', hr', b1, b2⟩ := h2.ok_left hr
        rw [hr']
        refine ⟨a1.append b1, fun _ d d' => ?_⟩
        rw [lastFin_join, lastFin_join, a3 d d']
        cases fs with
        | nil => cases hr; cases hr'; rfl
        | cons g gs => exact b2 (by simp) _ _

/-- Lists whose ends agree whatever the default are empty both or end alike. -/
theorem getLast_alike {x y : List Motion} (h : ∀ d d', lastFin d' y = lastFin d x) : ∃ c c', x.getLast? = some c ∧ y.getLast? = some c' ∧
    c'.fin = c.fin := by
  have h1 := h {} { x := some 1 }
  have h2 := h {} {}
  have h3 := h { x := some 1 } {}
  unfold lastFin at h1 h2 h3
  cases hx : x.getLast? with
  | none =>
    rw [hx] at h1 h2 h3
    simp only at h1 h2 h3
    rw [h3] at h2
    simp at h2
  | some c =>
    cases hy : y.getLast? with
    | none =>
      rw [hx, hy] at h1 h2
      simp only at h1 h2
      rw [← h2] at h1
      simp at h1
    | some c' =>
      rw [hx, hy] at h1
      exact ⟨c, c', rfl, rfl, h1⟩

theorem routeSequences_heights {j : Job} {R S stepover : ℚ} {old : List Operation} {ss : List (List PathFace)} :
    ∀ {cs cs' : List Motion} {pos pos' : AddrVec}, SameCuts cs cs' →
    (∀ s ∈ ss, s ≠ []) → (∀ f ∈ ss.flatten, f.depth < j.opSafeHeight ∧ f.depth < S) →
    Alike SameCuts (routeSequences j stepover cs pos ss) (routeSequences (j.atHeights R S old) stepover cs' pos' ss) := by
  induction ss with
  | nil => intro cs cs' pos pos' h _ _; exact h
  | cons s ss ih =>
    intro cs cs' pos pos' h hne hf
    simp only [routeSequences]
    have h1 := routeFaces_heights (j := j) (old := old) (R := R) (S := S) (so := some stepover) (fs := s) (pwe := none) (pos := pos) (pos' := pos')
      (fun h => (h rfl).elim) (fun f hm => hf f (by simp [hm]))
    unfold routePolyfaceOuters
    refine h1.bind (fun a b ha hab => ?_)
    obtain ⟨c, c', hl, hl', hfin⟩ := getLast_alike (hab.2 (hne s (by simp)))
    simp only [List.getLast?_append, hl, hl', Option.some_or]
    exact ih (h.append hab.1) (fun s hs => hne s (by simp [hs])) (fun f hm => hf f (by
      simp only [List.flatten_cons, List.mem_append]; exact .inr hm))


theorem pocket_heights (eng : Clipper) (veq : Vec → Vec → Bool) (fuel : ℕ) (opAreas avoidAreas : List CqFace) (a : PocketArgs) (j : Job)
    {R S : ℚ} {old : List Operation} (h : 0 < j.opSafeHeight) (h' : 0 < S) :
    Alike SameCuts (pocket eng veq fuel opAreas avoidAreas a j) (pocket eng veq fuel opAreas avoidAreas a (j.atHeights R S old)) := by
  unfold pocket
  have hr : (j.atHeights R S old).toolRadius = j.toolRadius := rfl
  have hp : (j.atHeights R S old).precision = j.precision := rfl
  rw [hr]
  cases j.toolRadius with
  | none => rfl
  | some r =>
    simp only [hp]
    cases h1 : mapE (fun f => PathFace.fromCqFace veq f j.precision) opAreas with
    | error e => rfl
    | ok ops =>
      cases h2 : mapE (fun f => PathFace.fromCqFace veq f j.precision) avoidAreas with
      | error e => rfl
      | ok avoids =>
        simp only [ok_bind]
        unfold pocketClipper
        rw [hp]
        generalize calculateOffset r _ (some (-1)) = o1
        generalize calculateOffset r a.innerOffset (some 1) = o2
        generalize calculateOffset r a.avoidOuterOffset (some 1) = o3
        generalize calculateOffset r a.avoidInnerOffset (some (-1)) = o4
        generalize calculateOffset r a.stepover (some (1 / 2)) = o5
        cases h3 : mapE (fun f => offsetPolyface eng f o1 o2 j.precision) ops with
        | error e => rfl
        | ok os =>
          cases h4 : mapE (fun f => offsetPolyface eng f o3 o4 j.precision) avoids with
          | error e => rfl
          | ok as =>
            simp only [ok_bind]
            cases h5 : buildPocketOps eng os.flatten as.flatten with
            | error e => rfl
            | ok regions =>
              simp only [ok_bind]
              cases h6 : allSequences eng fuel o5 a.stepdown j.precision [] regions with
              | error e => rfl
              | ok seqs =>
                simp only [ok_bind]
                obtain ⟨hz, groups, rfl, g1, g2, g3⟩ := C38_order h5
                have hd := allSequences_depths (done := []) (flatten_pairwise g1 g3) (fun o ho => by
                  obtain ⟨f, hf, he⟩ := ops_depth h5 (o := o) ho
                  rw [← he]
                  exact hz f (List.mem_append_left _ hf)) h6
                refine routeSequences_heights (SameCuts.refl _) hd.2 (fun f hf => ?_)
                have := (hd.1 f hf).2
                constructor <;> linarith

/-! ### Profiles -/

theorem routeWire_heights {veq : Vec → Vec → Bool} {j : Job} {R S : ℚ} {hit : Option WireHit} {pos pos' : AddrVec} {w : List Edge}
    (h : ∀ e, w.head? = some e → (edgeStartPoint e).z < j.opSafeHeight ∧ (edgeStartPoint e).z < S) :
    Alike (fun x y : List Motion × Vec => SameCuts x.1 y.1 ∧ y.2 = x.2 ∧ ∀ d d', lastFin d' y.1 = lastFin d x.1)
      (routeWire veq j none hit pos w) (routeWire veq (j.atHeights R S old) none hit pos' w) := by
  have hes : ∀ fin es, routeEdges veq (j.atHeights R S old) fin es = routeEdges veq j fin es := by
    intro fin es
    induction es generalizing fin with
    | nil => rfl
    | cons e es ih =>
      simp only [routeEdges]
      simp only [Job.atHeights] at ih ⊢
      simp only [ih]
  unfold routeWire enterWire
  simp only [wireLink, hes]
  cases w with
  | nil => rfl
  | cons e es =>
    obtain ⟨b1, b2⟩ := h e rfl
    obtain ⟨a1, a2, a3⟩ := rapidTo_heights (R := j.rapidHeight) (R' := R) pos pos' (e := edgeStartPoint e) b1 b2 (some j.plungeFeed)
    have hj : ∀ l : List Motion, SameCuts (rapidTo pos (edgeStartPoint e) j.rapidHeight (some j.opSafeHeight) (some j.plungeFeed) ++ l)
        (rapidTo pos' (edgeStartPoint e) R (some S) (some j.plungeFeed) ++ l) ∧
        ∀ d d', lastFin d' (rapidTo pos' (edgeStartPoint e) R (some S) (some j.plungeFeed) ++ l) =
          lastFin d (rapidTo pos (edgeStartPoint e) j.rapidHeight (some j.opSafeHeight) (some j.plungeFeed) ++ l) := by
      intro l
      refine ⟨a1.append (SameCuts.refl _), fun d d' => ?_⟩
      rw [lastFin_join, lastFin_join, a2, a3]
    simp only [Job.atHeights]
    cases h1 : routeEdge veq e j.precision (hit.bind WireHit.param) none (some j.feed) with
    | error x => rfl
    | ok x =>
      obtain ⟨first, fin⟩ := x
      simp only
      cases h2 : routeEdges veq j fin es with
      | error x => rfl
      | ok x =>
        obtain ⟨rest, fin2⟩ := x
        simp only
        cases hit.bind WireHit.param with
        | none => simp only [List.append_assoc]; exact ⟨(hj _).1, rfl, (hj _).2⟩
        | some p =>
          simp only
          by_cases hp : p = 0
          · rw [if_pos hp, if_pos hp]; simp only [List.append_assoc]; exact ⟨(hj _).1, rfl, (hj _).2⟩
          · rw [if_neg hp, if_neg hp]
            cases h3 : routeEdge veq e j.precision none (some p) (some j.feed) with
            | error x => rfl
            | ok x =>
              obtain ⟨last, fin3⟩ := x
              simp only [List.append_assoc]
              exact ⟨(hj _).1, rfl, (hj _).2⟩

theorem routeWiresFrom_heights {veq : Vec → Vec → Bool} {search : Vec → List Edge → Option WireHit} {j : Job} {R S : ℚ}
    {ws : List (List Edge)} (h : ∀ w ∈ ws, ∀ e, w.head? = some e → (edgeStartPoint e).z < j.opSafeHeight ∧ (edgeStartPoint e).z < S) :
    ∀ {acc acc' : List Motion} {pwe : Option Vec} {pos pos' : AddrVec}, SameCuts acc acc' →
    Alike SameCuts (routeWiresFrom veq search j none acc pwe pos ws)
      (routeWiresFrom veq search (j.atHeights R S old) none acc' pwe pos' ws) := by
  induction ws with
  | nil => intro acc acc' pwe pos pos' ha; exact ha
  | cons w ws ih =>
    intro acc acc' pwe pos pos' ha
    cases w with
    | nil => exact SameCuts.refl _
    | cons e es =>
      simp only [routeWiresFrom]
      have h1 := routeWire_heights (veq := veq) (old := old) (R := R) (pos := pos) (pos' := pos') (hit := pwe.bind (search · (e :: es))) (h (e :: es) (by simp))
      cases hr : routeWire veq j none (pwe.bind (search · (e :: es))) pos (e :: es) with
      | error x => rw [h1.error_left hr]; rfl
      | ok x =>
        obtain ⟨y, hr', b1, b2, b3⟩ := h1.ok_left hr
        obtain ⟨cs, fin⟩ := x
        obtain ⟨cs', fin'⟩ := y
        simp only at b1 b2 b3
        rw [hr']
        simp only
        rw [b2, b3 pos pos']
        exact ih (fun w hw => h w (by simp [hw])) (ha.append b1)

theorem profiles_heights {cad : Cad} {j : Job} {R S offset : ℚ} {sd : Option ℚ} {tabs : Option Tabs} {wires : List (List Edge)}
    (h : ∀ w ∈ wires, StartsBelow cad j.top offset sd tabs j.opSafeHeight w ∧ StartsBelow cad j.top offset sd tabs S w) :
    Alike SameCuts (profiles cad j offset sd tabs wires) (profiles cad (j.atHeights R S old) offset sd tabs wires) := by
  unfold profiles
  refine (Alike.mapE (S := SameCuts) fun w hw => ?_).bind (fun a b _ hab => SameCuts.flatten hab)
  unfold profile
  have he : profileWires cad (j.atHeights R S old) w offset sd tabs = profileWires cad j w offset sd tabs := rfl
  rw [he]
  cases hws : profileWires cad j w offset sd tabs with
  | error e => rfl
  | ok ws =>
    exact routeWiresFrom_heights (fun v hv e hve => ⟨(h w hw).1 j ws rfl hws v hv e hve, (h w hw).2 j ws rfl hws v hv e hve⟩)
      (SameCuts.refl _)

/-! ### Drilling and surfacing -/

theorem drillHoles_heights {j : Job} {R S d : ℚ} {old : List Operation} (ps : List Pt) (pos pos' : AddrVec) :
    SameCuts (drillHoles j d pos ps) (drillHoles (j.atHeights R S old) d pos' ps) := by
  induction ps generalizing pos pos' with
  | nil => exact SameCuts.refl _
  | cons p ps ih =>
    simp only [drillHoles]
    refine SameCuts.append ?_ (ih _ _)
    simp only [SameCuts, drillHole, rapidAbs, verticalAbs, List.filter, MKind.isFeed]
    refine .cons ⟨rfl, ?_, rfl, rfl, rfl, ?_, ?_, fun h => (h rfl).elim⟩ .nil <;> simp [fillEnd]

theorem passesMoves_heights {j : Job} {R : ℚ} {old : List Operation} {depths : List ℚ} {seqs : List (List Vec)} (ds : List ℚ) (i : ℕ) (pos pos' : AddrVec) :
    SameCuts (passesMoves j depths seqs i pos ds) (passesMoves (j.atHeights R j.opSafeHeight old) depths seqs i pos' ds) := by
  have hp : ∀ (depth : ℚ) (ss : List (List Vec)) (pos pos' : AddrVec),
      SameCuts (piecesMoves j depth pos ss) (piecesMoves (j.atHeights R j.opSafeHeight old) depth pos' ss) := by
    intro depth ss
    induction ss with
    | nil => intro _ _; exact SameCuts.refl _
    | cons s ss ih =>
      intro pos pos'
      simp only [piecesMoves]
      refine SameCuts.append ?_ (ih _ _)
      cases s with
      | nil => exact SameCuts.refl _
      | cons p ps =>
        simp only [pieceMoves]
        refine SameCuts.append ?_ ?_
        · simp only [SameCuts, rapidAbs, List.filter, MKind.isFeed]
          exact .nil
        · have : ∀ (q q' : AddrVec), q = q' → SameCuts (surfaceCuts depth q ps) (surfaceCuts depth q' ps) := by
            rintro q _ rfl; exact SameCuts.refl _
          apply this
          simp [rapidAbs, fillEnd, Job.atHeights]
  induction ds generalizing i pos pos' with
  | nil => exact SameCuts.refl _
  | cons d ds ih =>
    simp only [passesMoves]
    exact (hp _ _ _ _).append (ih _ _ _)

/-! ### The operations -/

/-- C126, for pockets: any positive safe heights. -/
theorem C126_pocket_partial (eng : Clipper) (veq : Vec → Vec → Bool) (box : List Edge → List (List Edge) → ℚ × ℚ) (fuel : ℕ)
    (opAreas avoidAreas : List WorldFace) (a : PocketArgs) (tool : Option Tool) (top : Frame) {S S' : ℚ} (h : 0 < S) (h' : 0 < S') :
    FreeOfHeights top S S' (pocketPlacedRequest eng veq box fuel opAreas avoidAreas a tool) where
  pre := fun _ _ _ => rfl
  gen := fun j _ _ _ hs => pocket_heights eng veq fuel _ _ a j (by rw [hs]; exact h) h'

/-- C126, for wire profiles whose contours start below both safe heights. -/
theorem C126_wire_profile_partial {cad : Cad} {wires : List (List Edge)} {offset : ℚ} {sd : Option ℚ} {tabs : Option Tabs}
    {tool : Option Tool} {top : Frame} {S S' : ℚ}
    (h : ∀ w ∈ wires, StartsBelow cad top offset sd tabs S w ∧ StartsBelow cad top offset sd tabs S' w) :
    FreeOfHeights top S S' (wireProfileRequest cad wires offset sd tabs tool) where
  pre := fun _ _ _ => rfl
  gen := fun j R old ht hs => by
    subst ht hs
    exact profiles_heights h

/-- C126, for profiles whose contours start below both safe heights. -/
theorem C126_profile_partial {cad : Cad} {shapes : List Shape} {oo io : Option ℚ} {sd : Option ℚ} {tabs : Option Tabs}
    {tool : Option Tool} {top : Frame} {S S' : ℚ}
    (h : ∀ os is, extractWires shapes = .ok (os, is) →
      (∀ o, oo = some o → ∀ w ∈ os, StartsBelow cad top o sd tabs S w ∧ StartsBelow cad top o sd tabs S' w) ∧
      ∀ o, io = some o → ∀ w ∈ is, StartsBelow cad top o sd tabs S w ∧ StartsBelow cad top o sd tabs S' w) :
    FreeOfHeights top S S' (profileRequest cad shapes oo io sd tabs tool) where
  pre := fun _ _ _ => rfl
  gen := fun j R old ht hs => by
    subst ht hs
    simp only [profileRequest]
    cases he : extractWires shapes with
    | error e => rfl
    | ok x =>
      obtain ⟨os, is⟩ := x
      obtain ⟨ho, hi⟩ := h os is he
      simp only [ok_bind]
      have key : ∀ (o : Option ℚ) (ws : List (List Edge)), (∀ v, o = some v → ∀ w ∈ ws, StartsBelow cad j.top v sd tabs j.opSafeHeight w ∧
          StartsBelow cad j.top v sd tabs S' w) →
          Alike SameCuts (profilesOpt cad j o sd tabs ws) (profilesOpt cad (j.atHeights R S' old) o sd tabs ws) := by
        intro o ws hw
        cases o with
        | none => exact SameCuts.refl _
        | some v => exact profiles_heights (hw v rfl)
      exact (key io is hi).bind (fun a b _ hab => (key oo os ho).bind (fun c d _ hcd => hab.append hcd))

/-- C126, for drilling: any heights. -/
theorem C126_drill_partial (center : List Edge → Except Err Vec) (o : Option (List DrillObj)) (depth : Option ℚ) (tool : Option Tool)
    (top : Frame) (S S' : ℚ) : FreeOfHeights top S S' (drillRequest center o depth tool) where
  pre := fun _ _ _ => rfl
  gen := fun j R old _ _ => by
    simp only [drillRequest]
    unfold drill
    cases o with
    | none => rfl
    | some objs =>
      cases depth with
      | none => rfl
      | some d =>
        have ht : (j.atHeights R S' old).top = j.top := rfl
        simp only [ht]
        cases mapE (drillVectors center j.top) objs with
        | error e => rfl
        | ok vs =>
          simp only [ok_bind]
          split
          · rfl
          · cases orderHoles (vs.flatten.map (fun v => (⟨v.x, v.y⟩ : Pt))).length none (vs.flatten.map (fun v => (⟨v.x, v.y⟩ : Pt))) with
            | error e => rfl
            | ok ordered => exact drillHoles_heights _ _ _

theorem Alike.bind_left {α β γ : Type} {S : β → γ → Prop} (x : Except Err α) {f : α → Except Err β} {g : α → Except Err γ}
    (h : ∀ a, Alike S (f a) (g a)) : Alike S (x >>= f) (x >>= g) := by
  cases x with
  | error e => exact rfl
  | ok a => exact h a

theorem surfaceBoundary_heights (eng : SurfaceEngine) (args : SurfaceArgs) (j : Job) (R : ℚ) (old : List Operation) (polygon : List Pt) :
    Alike SameCuts (surfaceBoundary eng args j polygon) (surfaceBoundary eng args (j.atHeights R j.opSafeHeight old) polygon) := by
  unfold surfaceBoundary
  refine Alike.bind_left _ fun paths => Alike.bind_left _ fun seqs => Alike.bind_left _ fun merged => Alike.bind_left _ fun ds => ?_
  exact passesMoves_heights ds 0 {} {}

theorem surface3d_heights (eng : SurfaceEngine) (k : FaceKernel) (args : SurfaceArgs) (oo : ℚ × ℚ) (io : Option (ℚ × ℚ))
    (bs : List BoundaryFace) (j : Job) (R : ℚ) (old : List Operation) :
    Alike SameCuts (surface3d eng k args oo io bs j) (surface3d eng k args oo io bs (j.atHeights R j.opSafeHeight old)) := by
  unfold surface3d
  refine Alike.bind_left _ fun faces => ?_
  refine Alike.bind (R := List.Forall₂ SameCuts) (Alike.mapE fun f _ => ?_) (fun a b _ hab => SameCuts.flatten hab)
  exact Alike.bind_left _ fun polygon => surfaceBoundary_heights eng args j R old polygon

/-- C126, for 3D surfacing: any rapid height. -/
theorem C126_surface_partial (eng : SurfaceEngine) (k : FaceKernel) (args : SurfaceArgs) (oo : ℚ × ℚ) (io : Option (ℚ × ℚ))
    (bs : List BoundaryFace) (top : Frame) (S : ℚ) : FreeOfHeights top S S (surface3dRequest eng k args oo io bs) where
  pre := fun _ _ _ => rfl
  gen := fun j R old _ hs => by
    subst hs
    exact surface3d_heights eng k args oo io bs j R old

/-! ### The whole program -/

theorem updateTool_heights (j : Job) (R S : ℚ) (old : List Operation) (t : Option Tool) :
    (∃ old', ((j.atHeights R S old).updateTool t).2 = (j.updateTool t).2.atHeights R S old') ∧ (j.updateTool t).2.top = j.top ∧
      (j.updateTool t).2.opSafeHeight = j.opSafeHeight := by
  cases t with
  | none => exact ⟨⟨old, rfl⟩, rfl, rfl⟩
  | some t =>
    have e1 : (j.atHeights R S old).toolNumber = j.toolNumber := rfl
    have e2 : (j.atHeights R S old).speed = j.speed := rfl
    simp only [Job.updateTool, e1, e2]
    split_ifs
    · exact ⟨⟨_, rfl⟩, rfl, rfl⟩
    · exact ⟨⟨_, rfl⟩, rfl, rfl⟩
    · exact ⟨⟨_, rfl⟩, rfl, rfl⟩

/-- A job at other heights, with the same feed moves so far. -/
def AtHeights (top : Frame) (S S' : ℚ) (j j' : Job) : Prop :=
  (∃ R old, j' = j.atHeights R S' old) ∧ j.top = top ∧ j.opSafeHeight = S

theorem AtHeights.updateTool {top : Frame} {S S' : ℚ} {j j' : Job} (h : AtHeights top S S' j j') (t : Option Tool) :
    AtHeights top S S' (j.updateTool t).2 (j'.updateTool t).2 := by
  obtain ⟨⟨R, old, rfl⟩, h1, h2⟩ := h
  obtain ⟨⟨old', h3⟩, h4, h5⟩ := updateTool_heights j R S' old t
  exact ⟨⟨R, old', h3⟩, h4.trans h1, h5.trans h2⟩

theorem AtHeights.addOperation {top : Frame} {S S' : ℚ} {j j' : Job} (h : AtHeights top S S' j j') (n : Text) (cs cs' : List Command) :
    AtHeights top S S' (j.addOperation n cs) (j'.addOperation n cs') := by
  obtain ⟨⟨R, old, rfl⟩, h1, h2⟩ := h
  exact ⟨⟨R, _, rfl⟩, h1, h2⟩

theorem FreeOfHeights.use {top : Frame} {S S' : ℚ} {r : Request} (hr : FreeOfHeights top S S' r) {j j' : Job} (h : AtHeights top S S' j j') :
    r.pre j' = r.pre j ∧ Alike SameCuts (r.gen (j.updateTool r.tool).2) (r.gen (j'.updateTool r.tool).2) := by
  have hu := h.updateTool r.tool
  constructor
  · obtain ⟨⟨R, old, rfl⟩, h1, h2⟩ := h
    exact hr.pre j R old
  · obtain ⟨⟨R, old, e⟩, h1, h2⟩ := hu
    rw [e]
    exact hr.gen _ R old h1 h2

theorem call_heights {top : Frame} {S S' : ℚ} {j j' : Job} {r : Request} (hj : AtHeights top S S' j j') (hm : SameCuts j.motions j'.motions)
    (h : FreeOfHeights top S S' r) :
    Alike (fun i i' => AtHeights top S S' i i' ∧ SameCuts i.motions i'.motions) (j.call r).2 (j'.call r).2 := by
  have hu := hj.updateTool r.tool
  obtain ⟨hp, hg⟩ := h.use hj
  simp only [Job.call, hp]
  cases r.pre j with
  | error e => exact rfl
  | ok _ =>
    simp only
    cases hx : r.gen (j.updateTool r.tool).2 with
    | error e => rw [hg.error_left hx]; exact rfl
    | ok cs =>
      obtain ⟨cs', hy, hcs⟩ := hg.ok_left hx
      rw [hy]
      refine ⟨hu.addOperation _ _ _, ?_⟩
      have : ∀ (i : Job) (n : Text) (ds : List Motion), (i.addOperation n (ds.map .motion)).motions = i.motions ++ ds := by
        intro i n ds
        simp [Job.motions, Job.addOperation, motionsOf_motion]
      rw [this, this, updateTool_motions, updateTool_motions]
      exact hm.append hcs

/-- C126.  The same chain of calls on two jobs that differ in their heights only is refused with the same exception or accepted on
both, and the two programs have the same feed moves, in the same order and with the same feeds; only the heights at which plunges
begin may differ. -/
theorem C126_program_partial {j : Job} (h0 : j.operations = []) {R S' : ℚ} {rs : List Request}
    (h : ∀ r ∈ rs, FreeOfHeights j.top j.opSafeHeight S' r) :
    Alike (fun i i' => SameCuts i.motions i'.motions) (j.chain rs) ((j.atHeights R S' []).chain rs) := by
  have hj : AtHeights j.top j.opSafeHeight S' j (j.atHeights R S' []) := ⟨⟨R, _, rfl⟩, rfl, rfl⟩
  have hm : SameCuts j.motions (j.atHeights R S' []).motions := by
    have : j.motions = [] := by simp [Job.motions, h0]
    rw [this]
    exact SameCuts.refl _
  generalize j.atHeights R S' [] = j' at hj hm
  generalize j.top = top at hj h
  generalize j.opSafeHeight = S at hj h
  clear h0
  induction rs generalizing j j' with
  | nil => exact hm
  | cons r rs ih =>
    have hc := call_heights hj hm (h r (by simp))
    simp only [Job.chain]
    cases hx : (j.call r).2 with
    | error e => rw [hc.error_left hx]; exact rfl
    | ok i =>
      obtain ⟨i', hy, hi⟩ := hc.ok_left hx
      rw [hy]
      exact ih _ hi.2 hi.1 (fun q hq => h q (by simp [hq]))

/-! ### On the machine -/

theorem chainMoves_heights {top : Frame} {S S' : ℚ} {j j' : Job} (hj : AtHeights top S S' j j') {rs : List Request}
    (h : ∀ r ∈ rs, FreeOfHeights top S S' r) : List.Forall₂ SameCuts (chainMoves j rs) (chainMoves j' rs) := by
  induction rs generalizing j j' with
  | nil => exact .nil
  | cons r rs ih =>
    obtain ⟨hp, hg⟩ := (h r (by simp)).use hj
    simp only [chainMoves, Job.call, hp]
    cases hpre : r.pre j with
    | error e =>
      cases hx : r.gen (j.updateTool r.tool).2 with
      | error e => rw [hg.error_left hx]; exact .nil
      | ok cs =>
        obtain ⟨cs', hy, -⟩ := hg.ok_left hx
        rw [hy]
        exact .nil
    | ok _ =>
      cases hx : r.gen (j.updateTool r.tool).2 with
      | error e => rw [hg.error_left hx]; exact .nil
      | ok cs =>
        obtain ⟨cs', hy, hcs⟩ := hg.ok_left hx
        rw [hy]
        exact .cons hcs (ih ((hj.updateTool r.tool).addOperation _ _ _) (fun q hq => h q (by simp [hq])))

theorem performs_feed {e : Event} {c : Motion} (h : Performs e c) : isFeedMove e = c.kind.isFeed := by
  obtain ⟨tgt, ctr, ha, -⟩ := h
  unfold isFeedMove
  rw [ha]
  cases c.kind <;> rfl

theorem performs_filter {evs : List Event} {cs : List Motion} (h : List.Forall₂ Performs (evs.filter isMove) cs) :
    List.Forall₂ Performs (evs.filter isFeedMove) (cs.filter (fun c => c.kind.isFeed)) := by
  have he : evs.filter isFeedMove = (evs.filter isMove).filter isFeedMove := by
    rw [List.filter_filter]
    congr 1
    funext e
    cases hf : isFeedMove e with
    | false => simp
    | true => simp [isMove_of_isFeedMove hf]
  rw [he]
  generalize evs.filter isMove = l at h
  induction h with
  | nil => exact .nil
  | @cons e c l cs hp _ ih =>
    simp only [List.filter_cons, performs_feed hp]
    split
    · exact .cons hp ih
    · exact ih

theorem performs_sameCut {e e' : Event} {c c' : Motion} (hc : SameCut c c') (h : Performs e c) (h' : Performs e' c') :
    MovesAlike e e' := by
  obtain ⟨tgt, ctr, ha, hx, hy, hz, hctr, -⟩ := h
  obtain ⟨tgt', ctr', ha', hx', hy', hz', hctr', -⟩ := h'
  rw [hc.fin] at hx' hy' hz'
  rw [hc.kind] at ha'
  have : centreOff c' = centreOff c := by
    simp only [centreOff, hc.kind, hc.center, hc.startX, hc.startY]
    by_cases hk : c.kind = .plungeCut
    · rw [hk]; rfl
    · rw [hc.startZ hk]
  rw [this] at hctr'
  subst hctr hctr'
  exact ⟨c.kind.mot, tgt, tgt', centreOff c, ha, ha', axis_alike hx hx', axis_alike hy hy', axis_alike hz hz'⟩

/-- C126 on the machine: running the two programs (on two machines in whatever state), the machines make the same feed moves, call
by call and one by one. -/
theorem C126_machine_partial {j0 jf : Job} {R S' : ℚ} {rs : List Request} (m m' : Machine) (h0 : InitOK j0)
    (hn : ∀ v, j0.toolNumber = some v → NumOK v) (hok : ChainOK j0 rs) (hok' : ChainOK (j0.atHeights R S' []) rs)
    (hw : ∀ r ∈ rs, FreeOfHeights j0.top j0.opSafeHeight S' r) (h : j0.chain rs = .ok jf)
    (hend : m.ended = false) (hend' : m'.ended = false) (htool : ∀ n, j0.toolNumber = some n → m.tool = some n.value)
    (htool' : ∀ n, j0.toolNumber = some n → m'.tool = some n.value) :
    ∃ jf' t t' m1 m1' a b c a' b' c' evss evss', (j0.atHeights R S' []).chain rs = .ok jf' ∧ jf.toGcode = .ok t ∧
      jf'.toGcode = .ok t' ∧ runText m t = some (m1, a :: (evss.flatten ++ [b, c])) ∧
      runText m' t' = some (m1', a' :: (evss'.flatten ++ [b', c'])) ∧ evss.length = rs.length ∧
      (isMove a = false ∧ isMove b = false ∧ isMove c = false) ∧ (isMove a' = false ∧ isMove b' = false ∧ isMove c' = false) ∧
      List.Forall₂ (fun evs evs' => List.Forall₂ MovesAlike (evs.filter isFeedMove) (evs'.filter isFeedMove)) evss evss' := by
  have hp := C126_program_partial (R := R) h0.1 hw
  obtain ⟨jf', h', -⟩ := hp.ok_left h
  obtain ⟨t, m1, a, b, c, evss, p1, p2, p3, p4, p5, p6, p7, -⟩ := chain_program m h0 hn hok h hend htool
  obtain ⟨t', m1', a', b', c', evss', q1, q2, q3, q4, q5, q6, q7, -⟩ :=
    chain_program m' (j0 := j0.atHeights R S' []) ⟨rfl, h0.2, h0.3, h0.4⟩ hn hok' h' hend' htool'
  refine ⟨jf', t, t', m1, m1', a, b, c, a', b', c', evss, evss', h', p1, q1, p2, q2, ?_, ?_, ?_, ?_⟩
  · rw [p7.length_eq, requestSettings_length]
  · simp [isMove, p3, p4, p5]
  · simp [isMove, q3, q4, q5]
  · have hm := chainMoves_heights (j := j0) (j' := j0.atHeights R S' []) ⟨⟨R, _, rfl⟩, rfl, rfl⟩ hw
    clear p2 p7 q2 q7
    generalize chainMoves j0 rs = css at p6 hm
    generalize chainMoves (j0.atHeights R S' []) rs = css' at q6 hm
    revert q6 css' evss'
    induction p6 with
    | nil =>
      intro evss' css' q6 hm
      cases hm
      cases q6
      exact .nil
    | @cons evs cs evss css hp hps ih =>
      intro evss' css' q6 hm
      cases hm with
      | @cons _ cs' _ css'' hcs hcss =>
        cases q6 with
        | @cons evs' _ evss'' _ hq hqs =>
          refine .cons ?_ (ih _ _ hqs hcss)
          have hp := performs_filter hp
          have hq := performs_filter hq
          clear ih hps hqs hcss
          unfold SameCuts at hcs
          generalize cs.filter (fun c => c.kind.isFeed) = cs at hp hcs
          generalize cs'.filter (fun c => c.kind.isFeed) = cs' at hq hcs
          generalize evs.filter isFeedMove = l at hp ⊢
          generalize evs'.filter isFeedMove = l' at hq ⊢
          revert hq hcs l' cs'
          induction hp with
          | nil => intro cs' hcs l' hq; cases hcs; cases hq; exact .nil
          | @cons x c l cs hx _ ih2 =>
            intro cs' hcs l' hq
            cases hcs with
            | cons hc hcs =>
              cases hq with
              | cons hy hys => exact .cons (performs_sameCut hc hx hy) (ih2 _ hcs _ hys)

end CQ
