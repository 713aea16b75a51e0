import Verif.Spec.Library
import Verif.Props.Isolation

/-! # C81, C82: heights in whole programs -/

namespace CQ

/-! ### Move lists whose rapids are harmless -/

theorem AddrVec.Le.refl (p : AddrVec) : p.Le p := ⟨fun _ h => h, fun _ h => h, fun _ h => h⟩

theorem AddrVec.Le.trans {p q r : AddrVec} (h : p.Le q) (h' : q.Le r) : p.Le r :=
  ⟨fun v e => h'.1 v (h.1 v e), fun v e => h'.2.1 v (h.2.1 v e), fun v e => h'.2.2 v (h.2.2 v e)⟩

theorem AddrVec.empty_le (p : AddrVec) : AddrVec.Le {} p :=
  ⟨fun _ h => (by cases h), fun _ h => (by cases h), fun _ h => (by cases h)⟩

/-- A rapid with harmless heights. -/
def RapidMove (rh sh : ℚ) (c : Motion) : Prop :=
  (c.fin.z = some rh ∨ c.fin.z = some sh ∨ c.fin.z = some 0) ∧
    (Lateral c → c.start.z = c.fin.z ∧ (c.fin.z = some rh ∨ c.fin.z = some sh))

/-- The rapids of the list have harmless heights and start from positions that are right. -/
def Tame (rh sh : ℚ) : AddrVec → List Motion → Prop
  | _, [] => True
  | p, c :: cs => (c.kind.mot = .rapid → c.start.Le p ∧ RapidMove rh sh c) ∧ Tame rh sh c.fin cs

theorem tame_mono {rh sh : ℚ} {p q : AddrVec} {cs : List Motion} (h : Tame rh sh p cs) (hl : p.Le q) : Tame rh sh q cs := by
  cases cs with
  | nil => trivial
  | cons c cs => exact ⟨fun hk => ⟨(h.1 hk).1.trans hl, (h.1 hk).2⟩, h.2⟩

theorem tame_append {rh sh : ℚ} {p : AddrVec} {a b : List Motion} :
    Tame rh sh p (a ++ b) ↔ Tame rh sh p a ∧ Tame rh sh (finalPos p a) b := by
  induction a generalizing p with
  | nil => simp [Tame, finalPos]
  | cons c a ih => simp only [List.cons_append, Tame, finalPos, ih, and_assoc]

theorem tame_feeds {rh sh : ℚ} {p : AddrVec} {cs : List Motion} (h : ∀ c ∈ cs, c.kind.mot ≠ .rapid) : Tame rh sh p cs := by
  induction cs generalizing p with
  | nil => trivial
  | cons c cs ih => exact ⟨fun hk => absurd hk (h c (by simp)), ih (fun c hc => h c (by simp [hc]))⟩

theorem tame_flatten {rh sh : ℚ} {l : List (List Motion)} (h : ∀ a ∈ l, Tame rh sh {} a) : ∀ p, Tame rh sh p l.flatten := by
  induction l with
  | nil => intro p; trivial
  | cons a l ih =>
    intro p
    rw [List.flatten_cons, tame_append]
    exact ⟨tame_mono (h a (by simp)) (AddrVec.empty_le p), ih (fun b hb => h b (by simp [hb])) _⟩

theorem tame_rapidTo (p : AddrVec) (e : Vec) (rh sh : ℚ) (pf : Option PyNum) : Tame rh sh p (rapidTo p e rh (some sh) pf) := by
  obtain ⟨up, side, down, feed, h, rfl, hs, rfl, hf⟩ := rapidTo_pieces p e rh sh pf
  rw [h, tame_append, tame_append, tame_append]
  have hup : Tame rh sh p [(⟨.retract, p, ⟨p.x, p.y, some rh⟩, none, {}, {}⟩ : Motion)] :=
    ⟨fun _ => ⟨.refl _, .inl rfl, fun hl => by simp [Lateral] at hl⟩, trivial⟩
  have hfeed : ∀ q, Tame rh sh q feed := by
    intro q
    refine tame_feeds ?_
    intro c hc
    rcases hf with ⟨-, rfl⟩ | ⟨-, rfl⟩
    · rw [List.mem_singleton] at hc; subst hc; exact fun h => (by cases h)
    · cases hc
  have hdown : ∀ q : AddrVec, AddrVec.Le ⟨some e.x, some e.y, some rh⟩ q →
      Tame rh sh q [(⟨.plungeRapid, ⟨some e.x, some e.y, some rh⟩, ⟨some e.x, some e.y, some sh⟩, none, {}, {}⟩ : Motion)] :=
    fun q hq => ⟨fun _ => ⟨hq, .inr (.inl rfl), fun hl => by simp [Lateral] at hl⟩, trivial⟩
  rcases hs with ⟨hx, hy, rfl⟩ | ⟨-, rfl⟩
  · refine ⟨⟨⟨hup, trivial⟩, hdown _ ?_⟩, hfeed _⟩
    simp only [finalPos, List.append_nil, hx, hy]
    exact .refl _
  · exact ⟨⟨⟨hup, ⟨fun _ => ⟨.refl _, .inl rfl, fun _ => ⟨rfl, .inl rfl⟩⟩, trivial⟩⟩, hdown _ (.refl _)⟩, hfeed _⟩

theorem tame_cutsTo (rh sh : ℚ) (j : Job) (d : ℚ) (p q : AddrVec) (ps : List Pt) : Tame rh sh q (cutsTo j d p ps) :=
  tame_feeds (fun c hc => by
    obtain ⟨h, -⟩ := cutsTo_mem hc
    rw [h]; decide)

theorem tame_routeFaces {j : Job} {stepover : Option ℚ} {faces : List PathFace} : ∀ {pwe : Option Pt} {pos : AddrVec}
    {cs : List Motion}, routeFaces j stepover pwe pos faces = .ok cs → Tame j.rapidHeight j.opSafeHeight pos cs := by
  induction faces with
  | nil => intro pwe pos cs h; cases h; trivial
  | cons f fs ih =>
    intro pwe pos cs h
    unfold routeFaces at h
    cases h1 : routeFace j stepover pwe pos f with
    | error e => rw [h1] at h; cases h
    | ok r =>
      obtain ⟨a, p⟩ := r
      rw [h1] at h
      simp only at h
      cases h2 : routeFaces j stepover p (lastFin pos a) fs with
      | error e => rw [h2] at h; cases h
      | ok r =>
        rw [h2] at h
        cases h
        rw [tame_append, ← lastFin_eq]
        refine ⟨?_, ih h2⟩
        unfold routeFace at h1
        cases ho : f.outer with
        | nil => rw [ho] at h1; cases h1
        | cons p0 ps =>
          rw [ho] at h1
          simp only at h1
          cases hn : nearestTo pwe (p0 :: ps) with
          | error e => rw [hn] at h1; cases h1
          | ok near =>
            rw [hn] at h1
            simp only at h1
            have happ : ∀ n : Option Nearest, Tame j.rapidHeight j.opSafeHeight pos (match n with
                | some n => [cutTo j f.depth pos n.point]
                | none => rapidTo pos ⟨p0.x, p0.y, f.depth⟩ j.rapidHeight (some j.opSafeHeight) (some j.plungeFeed)) := by
              intro n
              cases n with
              | some n => exact tame_feeds (fun c hc => by rw [List.mem_singleton] at hc; subst hc; exact fun h => (by cases h))
              | none => exact tame_rapidTo _ _ _ _ _
            have hone : ∀ (q r : AddrVec) (x : Pt), Tame j.rapidHeight j.opSafeHeight q [cutTo j f.depth r x] :=
              fun q r x => tame_feeds (fun c hc => by rw [List.mem_singleton] at hc; subst hc; exact fun h => (by cases h))
            cases near with
            | some n =>
              cases h1
              rw [tame_append, tame_append]
              exact ⟨⟨happ _, tame_cutsTo _ _ _ _ _ _ _⟩, hone _ _ _⟩
            | none =>
              cases h1
              rw [tame_append]
              exact ⟨happ _, tame_cutsTo _ _ _ _ _ _ _⟩

theorem tame_routeSequences {j : Job} {stepover : ℚ} (ss : List (List PathFace)) : ∀ {commands cs : List Motion} {pos : AddrVec},
    routeSequences j stepover commands pos ss = .ok cs → Tame j.rapidHeight j.opSafeHeight {} commands →
    pos = finalPos {} commands → Tame j.rapidHeight j.opSafeHeight {} cs := by
  induction ss with
  | nil => intro commands cs pos h hc _; cases h; exact hc
  | cons s ss ih =>
    intro commands cs pos h hc hp
    unfold routeSequences at h
    obtain ⟨a, ha, h⟩ := bind_ok.mp h
    split at h
    · cases h
    · rename_i c hl
      refine ih h ?_ ?_
      · rw [tame_append, ← hp]
        exact ⟨hc, tame_routeFaces ha⟩
      · rw [← lastFin_eq]
        simp only [lastFin, hl]

theorem tame_pocket {eng : Clipper} {veq : Vec → Vec → Bool} {fuel : ℕ} {opAreas avoidAreas : List CqFace} {a : PocketArgs}
    {j : Job} {cs : List Motion} (h : pocket eng veq fuel opAreas avoidAreas a j = .ok cs) :
    Tame j.rapidHeight j.opSafeHeight {} cs := by
  unfold pocket at h
  cases hr : j.toolRadius with
  | none => rw [hr] at h; cases h
  | some r =>
    rw [hr] at h
    obtain ⟨_, -, h⟩ := bind_ok.mp h
    obtain ⟨_, -, h⟩ := bind_ok.mp h
    unfold pocketClipper at h
    obtain ⟨_, -, h⟩ := bind_ok.mp h
    obtain ⟨_, -, h⟩ := bind_ok.mp h
    obtain ⟨_, -, h⟩ := bind_ok.mp h
    obtain ⟨seqs, -, h⟩ := bind_ok.mp h
    exact tame_routeSequences seqs h trivial rfl

theorem tame_routeWire {veq : Vec → Vec → Bool} {j : Job} {stepover : Option ℚ} {hit : Option WireHit} {pos : AddrVec}
    {edges : List Edge} {cs : List Motion} {v : Vec} (h : routeWire veq j stepover hit pos edges = .ok (cs, v)) :
    Tame j.rapidHeight j.opSafeHeight pos cs := by
  have hen : ∀ {es app}, enterWire veq j stepover hit pos edges = .ok (es, app) →
      Tame j.rapidHeight j.opSafeHeight pos app := by
    intro es app he
    unfold enterWire at he
    cases hl : wireLink stepover hit with
    | some hh =>
      rw [hl] at he
      simp only at he
      cases hs : shiftEdges veq edges hh with
      | error x => rw [hs] at he; cases he
      | ok es' =>
        rw [hs] at he
        cases es' with
        | nil => cases he
        | cons e es' =>
          cases he
          exact tame_feeds (fun c hc => by rw [List.mem_singleton] at hc; subst hc; simp [cutAbs, MKind.mot])
    | none =>
      rw [hl] at he
      cases edges with
      | nil => cases he
      | cons e es' => cases he; exact tame_rapidTo _ _ _ _ _
  unfold routeWire at h
  cases he : enterWire veq j stepover hit pos edges with
  | error x => rw [he] at h; cases h
  | ok r =>
    obtain ⟨es, app⟩ := r
    have happ := hen he
    rw [he] at h
    cases es with
    | nil => cases h
    | cons e es =>
      simp only at h
      cases h1 : routeEdge veq e j.precision (hit.bind WireHit.param) none (some j.feed) with
      | error x => rw [h1] at h; cases h
      | ok r =>
        obtain ⟨a, b⟩ := r
        rw [h1] at h
        simp only at h
        cases h2 : routeEdges veq j b es with
        | error x => rw [h2] at h; cases h
        | ok r =>
          obtain ⟨a', b'⟩ := r
          rw [h2] at h
          have hbase : Tame j.rapidHeight j.opSafeHeight pos (app ++ a ++ a') := by
            rw [tame_append, tame_append]
            exact ⟨⟨happ, tame_feeds (routeEdge_feeds h1)⟩, tame_feeds (routeEdges_feeds h2)⟩
          cases hp : hit.bind WireHit.param with
          | none => rw [hp] at h; cases h; exact hbase
          | some p =>
            rw [hp] at h
            simp only at h
            split at h
            · cases h; exact hbase
            · cases h3 : routeEdge veq e j.precision none (some p) (some j.feed) with
              | error x => rw [h3] at h; cases h
              | ok r =>
                obtain ⟨a'', b''⟩ := r
                rw [h3] at h
                cases h
                rw [tame_append]
                exact ⟨hbase, tame_feeds (routeEdge_feeds h3)⟩

theorem tame_routeWiresFrom {veq : Vec → Vec → Bool} {search : Vec → List Edge → Option WireHit} {j : Job} {stepover : Option ℚ}
    {p0 : AddrVec} (ws : List (List Edge)) : ∀ {acc : List Motion} {pwe : Option Vec} {pos : AddrVec} {cs : List Motion},
    routeWiresFrom veq search j stepover acc pwe pos ws = .ok cs → Tame j.rapidHeight j.opSafeHeight p0 acc →
    pos = finalPos p0 acc → Tame j.rapidHeight j.opSafeHeight p0 cs := by
  induction ws with
  | nil => intro acc pwe pos cs h ha _; cases h; exact ha
  | cons w ws ih =>
    intro acc pwe pos cs h ha hp
    cases w with
    | nil => cases h; trivial
    | cons e es =>
      simp only [routeWiresFrom] at h
      cases h1 : routeWire veq j stepover (pwe.bind (search · (e :: es))) pos (e :: es) with
      | error x => rw [h1] at h; cases h
      | ok r =>
        obtain ⟨ds, fin⟩ := r
        rw [h1] at h
        refine ih h ?_ ?_
        · rw [tame_append, ← hp]
          exact ⟨ha, tame_routeWire h1⟩
        · rw [finalPos_append, ← hp, lastFin_eq]

theorem tame_profiles {cad : Cad} {j : Job} {offset : ℚ} {stepdown : Option ℚ} {tabs : Option Tabs} {wires : List (List Edge)}
    {cs : List Motion} (h : profiles cad j offset stepdown tabs wires = .ok cs) :
    ∀ p, Tame j.rapidHeight j.opSafeHeight p cs := by
  obtain ⟨bs, h1, h⟩ := bind_ok.mp h
  cases h
  refine tame_flatten ?_
  intro b hb
  obtain ⟨w, -, hw⟩ := mapE_mem h1 hb
  obtain ⟨ws, -, hw⟩ := bind_ok.mp hw
  exact tame_routeWiresFrom ws hw trivial rfl

theorem tame_drillHoles (j : Job) (d : ℚ) (ps : List Pt) : ∀ pos,
    Tame j.rapidHeight j.opSafeHeight pos (drillHoles j d pos ps) := by
  induction ps with
  | nil => intro pos; trivial
  | cons p ps ih =>
    intro pos
    rw [drillHoles, tame_append, ← lastFin_eq]
    refine ⟨?_, ih _⟩
    refine ⟨fun _ => ⟨.refl _, .inr (.inl rfl), fun hl => ?_⟩, fun _ => ⟨.refl _, .inr (.inl rfl), fun _ => ⟨rfl, .inr rfl⟩⟩,
      fun _ => ⟨.refl _, .inr (.inr rfl), fun hl => ?_⟩, fun hk => (by cases hk), trivial⟩
    · simp [Lateral, rapidAbs, fillEnd] at hl
    · simp [Lateral, rapidAbs, fillEnd] at hl

theorem tame_surfaceCuts (rh sh d : ℚ) (p q : AddrVec) (ps : List Vec) : Tame rh sh q (surfaceCuts d p ps) :=
  tame_feeds (fun c hc => by
    have h : ∀ (ps : List Vec) (p : AddrVec), ∀ c ∈ surfaceCuts d p ps, c.kind.mot ≠ .rapid := by
      intro ps
      induction ps with
      | nil => intro p c hc; cases hc
      | cons v vs ih =>
        intro p c hc
        rw [surfaceCuts] at hc
        rcases List.mem_cons.mp hc with rfl | hc
        · simp [cutAbs, MKind.mot]
        · exact ih _ c hc
    exact h ps p c hc)

theorem tame_piecesMoves (j : Job) (d : ℚ) (ss : List (List Vec)) : ∀ pos,
    Tame j.rapidHeight j.opSafeHeight pos (piecesMoves j d pos ss) := by
  induction ss with
  | nil => intro pos; trivial
  | cons s ss ih =>
    intro pos
    rw [piecesMoves, tame_append, ← lastFin_eq]
    refine ⟨?_, ih _⟩
    cases s with
    | nil => trivial
    | cons p ps =>
      refine ⟨fun _ => ⟨.refl _, .inl rfl, fun hl => ?_⟩, fun _ => ⟨.refl _, .inl rfl, fun _ => ⟨rfl, .inl rfl⟩⟩,
        fun _ => ⟨.refl _, .inr (.inl rfl), fun hl => ?_⟩, tame_surfaceCuts _ _ _ _ _ _⟩
      · simp [Lateral, rapidAbs, fillEnd] at hl
      · simp [Lateral, rapidAbs, fillEnd] at hl

theorem tame_passesMoves (j : Job) (ds : List ℚ) (seqs : List (List Vec)) (rest : List ℚ) : ∀ (i : ℕ) (pos : AddrVec),
    Tame j.rapidHeight j.opSafeHeight pos (passesMoves j ds seqs i pos rest) := by
  induction rest with
  | nil => intro i pos; trivial
  | cons d rest ih =>
    intro i pos
    rw [passesMoves, tame_append, ← lastFin_eq]
    exact ⟨tame_piecesMoves _ _ _ _, ih _ _⟩

/-- C15, operation names: those the library writes into the program are harmless. -/
theorem C15_library_names {r : Request} (h : LibraryRequest r) : SafeName r.opName := by
  cases h with
  | pocket => exact (by decide : ∀ c ∈ "Pocket".toList, c ≠ '(' ∧ c ≠ ')' ∧ c ≠ '\n')
  | profile => exact (by decide : ∀ c ∈ "Profile".toList, c ≠ '(' ∧ c ≠ ')' ∧ c ≠ '\n')
  | wireProfile => exact (by decide : ∀ c ∈ "Wire Profile".toList, c ≠ '(' ∧ c ≠ ')' ∧ c ≠ '\n')
  | drill => exact (by decide : ∀ c ∈ "Drill".toList, c ≠ '(' ∧ c ≠ ')' ∧ c ≠ '\n')
  | surface3d => exact (by decide : ∀ c ∈ "Surface 3D".toList, c ≠ '(' ∧ c ≠ ')' ∧ c ≠ '\n')

/-- The moves of every operation of the library. -/
theorem tame_library {r : Request} (h : LibraryRequest r) {j : Job} {cs : List Motion} (hg : r.gen j = .ok cs) :
    Tame j.rapidHeight j.opSafeHeight {} cs := by
  cases h with
  | pocket eng veq fuel opAreas avoidAreas a tool => exact tame_pocket hg
  | wireProfile cad wires offset stepdown tabs tool => exact tame_profiles hg {}
  | profile cad shapes outerOffset innerOffset stepdown tabs tool =>
    obtain ⟨⟨os, is⟩, -, h⟩ := bind_ok.mp hg
    obtain ⟨a, h1, h⟩ := bind_ok.mp h
    obtain ⟨b, h2, h⟩ := bind_ok.mp h
    cases h
    have key : ∀ {o : Option ℚ} {ws : List (List Edge)} {cs : List Motion}, profilesOpt cad j o stepdown tabs ws = .ok cs →
        ∀ p, Tame j.rapidHeight j.opSafeHeight p cs := by
      intro o ws cs h
      cases o with
      | none => cases h; exact fun _ => trivial
      | some o => exact tame_profiles h
    rw [tame_append]
    exact ⟨key h1 _, key h2 _⟩
  | drill center o depth tool =>
    change drill center o depth j = .ok cs at hg
    cases o with
    | none => cases hg
    | some o =>
      cases depth with
      | none => cases hg
      | some d =>
        obtain ⟨-, ps, -, -, -, -, -, rfl⟩ := drill_ok hg
        exact tame_drillHoles _ _ _ _
  | surface3d eng k args oo io bs =>
    change surface3d eng k args oo io bs j = .ok cs at hg
    obtain ⟨css, rfl, hb⟩ := surface3d_ok hg
    refine tame_flatten ?_ _
    intro b hbm
    obtain ⟨poly, hp⟩ := hb b hbm
    obtain ⟨_, -, hp⟩ := bind_ok.mp hp
    obtain ⟨_, -, hp⟩ := bind_ok.mp hp
    obtain ⟨_, -, hp⟩ := bind_ok.mp hp
    obtain ⟨_, -, hp⟩ := bind_ok.mp hp
    cases hp
    exact tame_passesMoves _ _ _ _ _ _

/-! ### Runs -/

theorem rnd_zero : rnd 3 0 = 0 := by decide +kernel

theorem tame_events {rh sh : ℚ} (cs : List Motion) : ∀ (p : AddrVec) (m : Machine), Tame rh sh p cs → Agrees p m.pos →
    ∀ e ∈ (effects m (cs.map .motion)).2, RapidFree rh sh e := by
  induction cs with
  | nil => intro p m _ _ e he; simp [effects] at he
  | cons c cs ih =>
    intro p m ht ha e he
    simp only [List.map_cons, effects, List.mem_append] at he
    rcases he with he | he
    · simp only [Command.effect, Motion.effect, List.mem_singleton] at he
      subst he
      intro tgt ctr hact
      simp only [Act.move.injEq] at hact
      obtain ⟨hk, rfl, -⟩ := hact
      obtain ⟨hle, hz, hlat⟩ := ht.1 hk
      have hpos : (withFeed m c).pos = m.pos := by unfold withFeed; split <;> rfl
      have hzs : (reach c.fin m.pos).z = some (rnd 3 rh) ∨ (reach c.fin m.pos).z = some (rnd 3 sh) ∨
          (reach c.fin m.pos).z = some 0 := by
        rcases hz with hz | hz | hz
        · exact .inl (by simp [reach, hz])
        · exact .inr (.inl (by simp [reach, hz]))
        · exact .inr (.inr (by simp [reach, hz, rnd_zero]))
      refine ⟨hzs, ?_⟩
      intro hxy
      simp only [hpos] at hxy
      have hl : Lateral c := by
        by_contra hn
        simp only [Lateral, not_or, not_not] at hn
        rcases hxy with hx | hy
        · apply hx
          cases hv : c.fin.x with
          | none => simp [reach, hv]
          | some v =>
            rw [ha.1 v (hle.1 v (hn.1.trans hv))]
            simp [reach, hv]
        · apply hy
          cases hv : c.fin.y with
          | none => simp [reach, hv]
          | some v =>
            rw [ha.2.1 v (hle.2.1 v (hn.2.trans hv))]
            simp [reach, hv]
      obtain ⟨h1, h2⟩ := hlat hl
      simp only [hpos]
      rcases h2 with h2 | h2
      · rw [ha.2.2 _ (hle.2.2 _ (h1.trans h2))]
        simp [reach, h2]
      · rw [ha.2.2 _ (hle.2.2 _ (h1.trans h2))]
        simp [reach, h2]
    · exact ih c.fin _ ht.2 (agrees_reach _ _) e he

/-! ### Jobs -/

/-- Where an operation of a job made from `j0` comes from. -/
def BaseOrigin (P : Request → Prop) (j0 : Job) (o : Operation) : Prop :=
  (∃ n s c, o.commands = [.toolChange n s c]) ∨ (∃ s c, o.commands = [.start s c]) ∨
    ∃ r j cs, P r ∧ SameBase j0 j ∧ r.gen j = .ok cs ∧ o.commands = cs.map .motion

theorem sameBase_heights {j0 j : Job} (h : SameBase j0 j) :
    j.rapidHeight = j0.rapidHeight ∧ j.opSafeHeight = j0.opSafeHeight ∧ j.top = j0.top := by
  rw [h]; exact ⟨rfl, rfl, rfl⟩

theorem updateTool_base {j0 j : Job} (h : SameBase j0 j) (t : Option Tool) : SameBase j0 (j.updateTool t).2 := by
  unfold SameBase at h ⊢
  cases t with
  | none => exact h
  | some t =>
    rcases updateTool_some j t with ⟨-, e⟩ | ⟨-, -, e⟩ | ⟨-, -, e⟩ <;> rw [e, h] <;> rfl

theorem addOperation_base {j0 j : Job} (h : SameBase j0 j) (n : Text) (cs : List Command) :
    SameBase j0 (j.addOperation n cs) := by
  unfold SameBase at h
  obtain ⟨j', rfl⟩ : ∃ j', j = j' := ⟨_, rfl⟩
  rw [h]
  rfl

theorem updateTool_baseOrigin {P : Request → Prop} {j0 j : Job} (h : ∀ o ∈ j.operations, BaseOrigin P j0 o)
    (t : Option Tool) : ∀ o ∈ (j.updateTool t).2.operations, BaseOrigin P j0 o := by
  cases t with
  | none => exact h
  | some t =>
    rcases updateTool_some j t with ⟨-, e⟩ | ⟨-, -, e⟩ | ⟨-, -, e⟩
    · rw [e]
      intro o ho
      simp only [Job.withSettings, Job.addOperation, List.mem_append, List.mem_singleton] at ho
      rcases ho with ho | rfl
      · exact h o ho
      · exact .inl ⟨_, _, _, rfl⟩
    · rw [e]
      intro o ho
      simp only [Job.withSettings, Job.addOperation, List.mem_append, List.mem_singleton] at ho
      rcases ho with ho | rfl
      · exact h o ho
      · exact .inr (.inl ⟨_, _, rfl⟩)
    · rw [e]; exact h

theorem reach_baseOrigin {P : Request → Prop} {j0 j : Job} (h0 : j0.operations = []) (h : ReachWith P j0 j) :
    SameBase j0 j ∧ ∀ o ∈ j.operations, BaseOrigin P j0 o := by
  induction h with
  | init => exact ⟨rfl, by simp [h0]⟩
  | @result j j' r _ hp _ e ih =>
    obtain ⟨-, cs, hg, rfl⟩ := call_ok e
    have hb := updateTool_base ih.1 r.tool
    refine ⟨?_, ?_⟩
    · exact addOperation_base hb _ _
    · intro o ho
      simp only [Job.addOperation, List.mem_append, List.mem_singleton] at ho
      rcases ho with ho | rfl
      · exact updateTool_baseOrigin ih.2 _ o ho
      · exact .inr (.inr ⟨r, _, cs, hp, hb, hg, rfl⟩)
  | @receiver j r _ _ _ ih =>
    have : (j.call r).1 = j ∨ (j.call r).1 = (j.updateTool r.tool).1 := by
      unfold Job.call
      split
      · exact .inl rfl
      · dsimp only
        split <;> exact .inr rfl
    rcases this with e | e
    · rw [e]; exact ih
    · rw [e]
      rcases updateTool_receiver j r.tool with e | e <;> rw [e]
      · exact ih
      · exact ⟨updateTool_base ih.1 _, updateTool_baseOrigin ih.2 _⟩

theorem operations_rapids {j0 : Job} (os : List Operation) :
    ∀ m : Machine, (∀ o ∈ os, BaseOrigin LibraryRequest j0 o) →
      ∀ e ∈ (effects m (os.map Operation.commands).flatten).2, RapidFree j0.rapidHeight j0.opSafeHeight e := by
  induction os with
  | nil => intro m _ e he; simp [effects] at he
  | cons o os ih =>
    intro m h e he
    rw [List.map_cons, List.flatten_cons, effects_append] at he
    rcases List.mem_append.mp he with he | he
    · rcases h o (by simp) with ⟨n, s, c, hc⟩ | ⟨s, c, hc⟩ | ⟨r, j, cs, hp, hb, hg, hc⟩
      · rw [hc] at he
        simp only [effects, Command.effect, toolChangeEffect, List.append_nil, List.mem_cons, List.not_mem_nil, or_false] at he
        intro tgt ctr hact
        rcases he with rfl | rfl | rfl <;> cases hact
      · rw [hc] at he
        simp [effects, Command.effect] at he
      · rw [hc] at he
        obtain ⟨e1, e2, -⟩ := sameBase_heights hb
        have ht := tame_library hp hg
        rw [e1, e2] at ht
        refine tame_events cs {} m ht ?_ e he
        exact ⟨fun _ h => (by cases h), fun _ h => (by cases h), fun _ h => (by cases h)⟩
    · exact ih _ (fun o ho => h o (by simp [ho])) e he

/-- C81.  In the program of every job made of operations of the library, whatever their arguments and whatever the CAD and clipping
engines answer: every rapid ends at the job's rapid height, its operation-safe height, or 0, and a rapid that changes X or Y starts
and ends at the same height, which is the rapid height or the operation-safe height (as printed). -/
theorem C81_rapids {j0 j : Job} (m : Machine) (h0 : InitOK j0) (hn : ∀ v, j0.toolNumber = some v → NumOK v)
    (h : ReachWith LibraryRequest j0 j) (hend : m.ended = false) :
    ∃ t m' evs, j.toGcode = .ok t ∧ runText m t = some (m', evs) ∧
      ∀ e ∈ evs, RapidFree j0.rapidHeight j0.opSafeHeight e := by
  have hok := (inv_reach (inv_init h0 hn) (reachWith_reach h)).ok
  obtain ⟨t, ht, hr⟩ := run_job m j hok hend
  rw [intended_eq] at hr
  refine ⟨t, _, _, ht, hr, ?_⟩
  intro e he
  simp only [List.mem_cons, List.mem_append, List.not_mem_nil, or_false] at he
  rcases he with rfl | he | rfl | rfl
  · intro tgt ctr hact; cases hact
  · exact operations_rapids j.operations _ (reach_baseOrigin h0.fresh h).2 e he
  · intro tgt ctr hact; cases hact
  · intro tgt ctr hact; cases hact

/-- A drilling job meets the hypotheses, and its program contains moves at feed and rapids. -/
example : ∃ j, ReachWith LibraryRequest demoInit j ∧ (∃ c ∈ motionsOf j.allCommands, c.kind.mot ≠ .rapid) := by
  obtain ⟨cs, ⟨c, hc, hk⟩, h⟩ := demoDrill_call
  refine ⟨_, .result (demoDrill none) .init (.drill _ _ _ _) demoDrill_ok h, c, ?_, hk⟩
  have : (demoInit.addOperation "Drill".toList (cs.map .motion)).allCommands = cs.map .motion := by
    simp [Job.allCommands, Job.addOperation, show demoInit.operations = [] from rfl]
  rw [this, motionsOf_map]
  exact hc

/-! ### C82 -/

theorem rnd_mono {a b : ℚ} (h : a ≤ b) : rnd 3 a ≤ rnd 3 b := by
  have hk : ⌊a * 10 ^ 3 + 1 / 2⌋ ≤ ⌊b * 10 ^ 3 + 1 / 2⌋ := Int.floor_le_floor (by linarith)
  have hfa := Int.floor_le (a * 10 ^ 3 + 1 / 2)
  have hfb := Int.floor_le (b * 10 ^ 3 + 1 / 2)
  unfold rnd
  dsimp only
  generalize ⌊a * 10 ^ 3 + 1 / 2⌋ = k at *
  generalize ⌊b * 10 ^ 3 + 1 / 2⌋ = l at *
  have hkl : (k : ℚ) ≤ l := by exact_mod_cast hk
  have hdiv : ∀ x y : ℚ, x ≤ y → x / 10 ^ 3 ≤ y / 10 ^ 3 := fun x y hxy => by linarith
  split
  · split <;> exact hdiv _ _ (by linarith)
  · rename_i hna
    split
    · rename_i hb
      refine hdiv _ _ ?_
      rcases hk.lt_or_eq with hlt | heq
      · have : (k : ℚ) + 1 ≤ l := by exact_mod_cast hlt
        linarith
      · subst heq
        exact absurd ⟨by linarith [hb.1], hb.2⟩ hna
    · exact hdiv _ _ hkl

theorem motions_above {lo : ℚ} (cs : List Motion) : ∀ m : Machine, MovesAbove lo cs →
    StaysAbove (rnd 3 lo) (effects m (cs.map .motion)).2 := by
  induction cs with
  | nil => intro m _ e he; simp [effects] at he
  | cons c cs ih =>
    intro m h e he
    simp only [List.map_cons, effects, List.mem_append] at he
    rcases he with he | he
    · simp only [Command.effect, Motion.effect, List.mem_singleton] at he
      subst he
      intro k tgt ctr hact
      simp only [Act.move.injEq] at hact
      obtain ⟨-, rfl, -⟩ := hact
      obtain ⟨z, hz, hl⟩ := h c (by simp)
      exact ⟨rnd 3 z, by simp [reach, hz], rnd_mono hl⟩
    · exact ih _ (fun c hc => h c (by simp [hc])) e he

theorem operations_above {j0 : Job} {lo : ℚ} (os : List Operation) : ∀ m : Machine,
    (∀ o ∈ os, BaseOrigin (fun r => ∀ j cs, SameBase j0 j → r.gen j = .ok cs → MovesAbove lo cs) j0 o) →
      StaysAbove (rnd 3 lo) (effects m (os.map Operation.commands).flatten).2 := by
  induction os with
  | nil => intro m _ e he; simp [effects] at he
  | cons o os ih =>
    intro m h e he
    rw [List.map_cons, List.flatten_cons, effects_append] at he
    rcases List.mem_append.mp he with he | he
    · rcases h o (by simp) with ⟨n, s, c, hc⟩ | ⟨s, c, hc⟩ | ⟨r, j, cs, hp, hb, hg, hc⟩
      · rw [hc] at he
        simp only [effects, Command.effect, toolChangeEffect, List.append_nil, List.mem_cons, List.not_mem_nil, or_false] at he
        intro k tgt ctr hact
        rcases he with rfl | rfl | rfl <;> cases hact
      · rw [hc] at he
        simp [effects, Command.effect] at he
      · rw [hc] at he
        exact motions_above cs m (hp j cs hb hg) e he
    · exact ih _ (fun o ho => h o (by simp [ho])) e he

/-- C82.  If no operation of a job goes below `lo`, no move of the program does (below `lo` as printed); and every move of the
program ends at a known height. -/
theorem C82_floor {j0 j : Job} {lo : ℚ} (m : Machine) (h0 : InitOK j0) (hn : ∀ v, j0.toolNumber = some v → NumOK v)
    (h : ReachWith (fun r => ∀ j cs, SameBase j0 j → r.gen j = .ok cs → MovesAbove lo cs) j0 j) (hend : m.ended = false) :
    ∃ t m' evs, j.toGcode = .ok t ∧ runText m t = some (m', evs) ∧ StaysAbove (rnd 3 lo) evs := by
  have hok := (inv_reach (inv_init h0 hn) (reachWith_reach h)).ok
  obtain ⟨t, ht, hr⟩ := run_job m j hok hend
  rw [intended_eq] at hr
  refine ⟨t, _, _, ht, hr, ?_⟩
  intro e he
  simp only [List.mem_cons, List.mem_append, List.not_mem_nil, or_false] at he
  rcases he with rfl | he | rfl | rfl
  · intro k tgt ctr hact; cases hact
  · exact operations_above j.operations _ (reach_baseOrigin h0.fresh h).2 e he
  · intro k tgt ctr hact; cases hact
  · intro k tgt ctr hact; cases hact

theorem tame_mem {rh sh : ℚ} {cs : List Motion} : ∀ {p : AddrVec}, Tame rh sh p cs → ∀ c ∈ cs, c.kind.mot = .rapid →
    RapidMove rh sh c := by
  induction cs with
  | nil => intro p _ c hc; cases hc
  | cons d cs ih =>
    intro p h c hc hk
    rcases List.mem_cons.mp hc with rfl | hc
    · exact (h.1 hk).2
    · exact ih h.2 c hc hk

/-- The rapids of the library's operations stay above; so only the feed moves matter. -/
theorem above_of_feeds {r : Request} (hl : LibraryRequest r) {j : Job} {cs : List Motion} (hg : r.gen j = .ok cs) {lo : ℚ}
    (h1 : lo ≤ j.rapidHeight) (h2 : lo ≤ j.opSafeHeight) (h3 : lo ≤ 0)
    (h : ∀ c ∈ cs, c.kind.mot ≠ .rapid → ∃ z, c.fin.z = some z ∧ lo ≤ z) : MovesAbove lo cs := by
  intro c hc
  by_cases hk : c.kind.mot = .rapid
  · rcases (tame_mem (tame_library hl hg) c hc hk).1 with e | e | e
    · exact ⟨_, e, h1⟩
    · exact ⟨_, e, h2⟩
    · exact ⟨_, e, h3⟩
  · exact h c hc hk

/-- C82 for pockets: nothing below the deepest of the given areas. -/
theorem C82_pocket {eng : Clipper} {veq : Vec → Vec → Bool} {fuel : ℕ} {opAreas avoidAreas : List CqFace} {a : PocketArgs}
    {tool : Option Tool} {j : Job} {cs : List Motion} {lo : ℚ}
    (h : (pocketRequest eng veq fuel opAreas avoidAreas a tool).gen j = .ok cs) (hlo : ∀ f ∈ opAreas, lo ≤ f.zmax)
    (h1 : lo ≤ j.rapidHeight) (h2 : lo ≤ j.opSafeHeight) (h3 : lo ≤ 0) (hh : j.opSafeHeight ≤ j.rapidHeight) :
    MovesAbove lo cs := by
  refine above_of_feeds (.pocket _ _ _ _ _ _ _) h h1 h2 h3 ?_
  change pocket eng veq fuel opAreas avoidAreas a j = .ok cs at h
  intro c hc hk
  obtain ⟨z, hf, f, hfm, hz⟩ := (C45_pocket h hh).2.2.2 c hc hk
  exact ⟨z, hf.1, (hlo f hfm).trans hz⟩

/-- C82 for drilling: nothing below the depth of the holes. -/
theorem C82_drill {center : List Edge → Except Err Vec} {o : Option (List DrillObj)} {d : ℚ} {tool : Option Tool}
    {j : Job} {cs : List Motion} {lo : ℚ} (h : (drillRequest center o (some d) tool).gen j = .ok cs) (hlo : lo ≤ -|d|)
    (h1 : lo ≤ j.rapidHeight) (h2 : lo ≤ j.opSafeHeight) : MovesAbove lo cs := by
  refine above_of_feeds (.drill _ _ _ _) h h1 h2 (hlo.trans (by simp)) ?_
  change drill center o (some d) j = .ok cs at h
  cases o with
  | none => cases h
  | some o =>
    intro c hc hk
    obtain ⟨-, -, -, hz, -⟩ := (C54_safe_motion h).2.2.1 c hc hk
    exact ⟨_, hz, hlo⟩

/-- C82 for `Job.wire_profile` without tabs: nothing below the height of the wire, if offsetting keeps it. -/
theorem C82_wire_profile {cad : Cad} (hb : BoxMoves cad) {wires : List (List Edge)} {offset : ℚ} {stepdown : Option ℚ}
    {tool : Option Tool} {j : Job} {cs : List Motion} {lo : ℚ}
    (h : (wireProfileRequest cad wires offset stepdown none tool).gen j = .ok cs)
    (hw : ∀ w ∈ wires, ∀ r bases, j.toolRadius = some r →
      offsetWire cad (w.map (Edge.toLocal j.top)) (offset * r) = .ok bases →
      ∃ z, lo ≤ z ∧ ∀ b ∈ bases, b ≠ [] ∧ cad.zmin b = z ∧ ∀ e ∈ b, EdgeAt (· = z) e)
    (hs : ∀ s, stepdown = some s → 0 ≤ s)
    (h1 : lo ≤ j.rapidHeight) (h2 : lo ≤ j.opSafeHeight) (h3 : lo ≤ 0) : MovesAbove lo cs := by
  refine above_of_feeds (.wireProfile _ _ _ _ _ _) h h1 h2 h3 ?_
  obtain ⟨bs, hm, h⟩ := bind_ok.mp h
  cases h
  intro c hc hk
  obtain ⟨b, hbm, hc⟩ := List.mem_flatten.mp hc
  obtain ⟨w, hwm, hp⟩ := mapE_mem hm hbm
  have hp' := hp
  obtain ⟨ws, hpw, -⟩ := bind_ok.mp hp
  unfold profileWires at hpw
  cases hr : j.toolRadius with
  | none => rw [hr] at hpw; cases hpw
  | some r =>
    rw [hr] at hpw
    obtain ⟨bases, ho, -⟩ := bind_ok.mp hpw
    obtain ⟨z, hz, hall⟩ := hw w hwm r bases hr ho
    obtain ⟨v, hv, hcase⟩ := C77_heights hb hr ho hall hp' c hc hk
    refine ⟨v, hv, ?_⟩
    rcases hcase with rfl | ⟨-, s, hst, k, -, -, rfl⟩
    · exact hz
    · have : 0 ≤ (k : ℚ) * s := mul_nonneg (Nat.cast_nonneg _) (hs s hst)
      linarith

/-- The passes of 3D surfacing with a negative (or no) stepdown stay at or above the bottom. -/
theorem depths_ge {stepdown : Option ℚ} {top bottom : ℚ} {depths : List ℚ} (h : surfaceDepths stepdown top bottom = .ok depths)
    (hs : ∀ s, stepdown = some s → s ≤ 0) : ∀ d ∈ depths, bottom ≤ d := by
  unfold surfaceDepths at h
  cases stepdown with
  | none => cases h; simp
  | some s =>
    simp only at h
    by_cases h0 : s = 0
    · rw [if_pos h0] at h; cases h; simp
    · rw [if_neg h0] at h
      have hs' : s < 0 := lt_of_le_of_ne (hs s rfl) h0
      have ha : ∀ d ∈ arange (top + s) bottom s, bottom ≤ d := by
        intro d hd
        rw [← neg_neg s] at hd
        exact (arange_above (neg_pos.mpr hs') hd).le
      cases hl : (arange (top + s) bottom s).getLast? with
      | none => rw [hl] at h; cases h
      | some l =>
        rw [hl] at h
        simp only at h
        split at h
        · cases h
          intro d hd
          rcases List.mem_append.mp hd with hd | hd
          · exact ha d hd
          · rw [List.mem_singleton.mp hd]
        · cases h; exact ha

/-- C82 for 3D surfacing: nothing below the bottom of the shape. -/
theorem C82_surface {eng : SurfaceEngine} {k : FaceKernel} {args : SurfaceArgs} {oo : ℚ × ℚ} {io : Option (ℚ × ℚ)}
    {bs : List BoundaryFace} {j : Job} {cs : List Motion} {h : Pt → ℚ} (hd : ∀ ps, eng.drop ps = ps.map h) {lo : ℚ}
    (hc : (surface3dRequest eng k args oo io bs).gen j = .ok cs) (hlo : lo ≤ eng.bottom)
    (hs : ∀ s, args.stepdown = some s → s ≤ 0)
    (h1 : lo ≤ j.rapidHeight) (h2 : lo ≤ j.opSafeHeight) (h3 : lo ≤ 0) : MovesAbove lo cs := by
  refine above_of_feeds (.surface3d _ _ _ _ _ _) hc h1 h2 h3 ?_
  change surface3d eng k args oo io bs j = .ok cs at hc
  obtain ⟨passes, rfl, hp⟩ := C56_no_gouge hd hc
  intro c hcm hk
  obtain ⟨b, hb, hcm⟩ := List.mem_flatten.mp hcm
  obtain ⟨pass, hpm, rfl⟩ := List.mem_map.mp hb
  obtain ⟨⟨depths, hdep, hmem⟩, hall⟩ := hp pass hpm
  obtain ⟨q, z, hcut, -, hz⟩ := hall c hcm hk
  exact ⟨z, by rw [hcut.2]; rfl, (hlo.trans (depths_ge hdep hs _ hmem)).trans hz⟩

/-- The drilling job meets the hypotheses with a floor of 3 below the top. -/
example : ∃ j, ReachWith (fun r => ∀ j cs, SameBase demoInit j → r.gen j = .ok cs → MovesAbove (-3) cs) demoInit j ∧
    (∃ c ∈ motionsOf j.allCommands, c.kind.mot ≠ .rapid) := by
  obtain ⟨cs, ⟨c, hc, hk⟩, h⟩ := demoDrill_call
  refine ⟨_, .result (demoDrill none) .init ?_ demoDrill_ok h, c, ?_, hk⟩
  · intro j cs hb hg
    obtain ⟨e1, e2, -⟩ := sameBase_heights hb
    refine C82_drill hg (by norm_num [abs_of_pos]) ?_ ?_
    · rw [e1]; decide +kernel
    · rw [e2]; decide +kernel
  · have : (demoInit.addOperation "Drill".toList (cs.map .motion)).allCommands = cs.map .motion := by
      simp [Job.allCommands, Job.addOperation, show demoInit.operations = [] from rfl]
    rw [this, motionsOf_map]
    exact hc

/-- So does 3D surfacing of the ramp, whose bottom is at -5. -/
example : ∃ cs : List Motion, (surface3dRequest hillEngine idleKernel hillArgs (-1, 0) (some (1, 0)) [hillFace]).gen demoInit = .ok cs ∧
    cs ≠ [] ∧ MovesAbove (-5) cs := by
  have hm : (match surface3d hillEngine idleKernel hillArgs (-1, 0) (some (1, 0)) [hillFace] demoInit with
      | .ok cs => decide (cs ≠ []) | .error _ => false) = true := by decide +kernel
  cases h : surface3d hillEngine idleKernel hillArgs (-1, 0) (some (1, 0)) [hillFace] demoInit with
  | error e => rw [h] at hm; cases hm
  | ok cs =>
    rw [h] at hm
    refine ⟨cs, h, by simpa using hm, ?_⟩
    refine C82_surface (h := hill) (fun _ => rfl) h (by decide +kernel) ?_ (by decide +kernel) (by decide +kernel) (by decide +kernel)
    rintro s ⟨⟩; norm_num

/-- And a wire profile with stepdown, at -3. -/
example : ∃ cs : List Motion, (wireProfileRequest flatCad [innerSquare.map (Edge.up (-2))] 1 (some 1) none none).gen millJob = .ok cs ∧
    cs.length = 22 ∧ MovesAbove (-3) cs := by
  have hm : (match profiles flatCad millJob 1 (some 1) none [innerSquare.map (Edge.up (-2))] with
      | .ok cs => decide (cs.length = 22) | .error _ => false) = true := by decide +kernel
  cases h : profiles flatCad millJob 1 (some 1) none [innerSquare.map (Edge.up (-2))] with
  | error e => rw [h] at hm; cases hm
  | ok cs =>
    rw [h] at hm
    refine ⟨cs, h, by simpa using hm, ?_⟩
    refine C82_wire_profile (tool := none) flatCad_boxMoves h ?_ (by rintro s ⟨⟩; norm_num) (by decide +kernel) (by decide +kernel)
      (by decide +kernel)
    intro w hw r bases hr ho
    rw [List.mem_singleton] at hw
    subst hw
    have hr2 : millJob.toolRadius = some 2 := by decide +kernel
    rw [hr2] at hr
    cases hr
    have ho2 : offsetWire flatCad ((innerSquare.map (Edge.up (-2))).map (Edge.toLocal millJob.top)) (1 * 2) =
        .ok [deepSquare] := by
      have hval : offsetValid flatCad deepSquare = true := by decide +kernel
      change Except.ok (circleBugWorkaround flatCad deepSquare ([deepSquare].filter (offsetValid flatCad))) = _
      rw [show [deepSquare].filter (offsetValid flatCad) = [deepSquare] from by simp [hval]]
      rfl
    rw [ho2] at ho
    cases ho
    refine ⟨-3, le_refl _, ?_⟩
    intro b hb
    rw [List.mem_singleton] at hb
    subst hb
    refine ⟨by decide +kernel, by decide +kernel, ?_⟩
    simp only [deepSquare, innerSquare, outline, List.map_cons, List.map_nil, List.mem_cons, List.not_mem_nil, or_false]
    rintro e (rfl | rfl | rfl | rfl) <;> constructor <;>
      simp [Edge.toLocal, Edge.up, Vec.up, lineEdge, millJob, Job.init, Frame.xy, Frame.toLocal, Vec.sub, Vec.dot] <;> norm_num

end CQ
