import Verif.Props.Drill64
import Verif.Spec.Contour64
import Verif.Props.EndToEnd

/-! # C140: drilling in floating point, on the machine -/

namespace CQ

/-- The feed moves of drilling are the plunges, in the order of the holes. -/
theorem holesMoves_plunges {sh depth : ℚ} {feed : PyNum} {ps : List Pt} : ∀ {pos : AddrVec} {cs : List Motion},
    HolesMoves sh depth feed pos ps cs → List.Forall₂ (fun c (p : Pt) => c.kind.mot = .linear ∧ c.start = p.at 0 ∧ c.fin = p.at depth)
      (cs.filter (fun c => decide (c.kind.mot ≠ .rapid))) ps := by
  induction ps with
  | nil => rintro pos cs rfl; exact .nil
  | cons q ps ih =>
    rintro pos cs ⟨x, y, rfl, ⟨up, side, down, plunge, rfl, ⟨u, -⟩, ⟨s, -⟩, ⟨d, -⟩, k1, k2, k3, -⟩, h2⟩
    rw [List.filter_append]
    have : [up, side, down, plunge].filter (fun c => decide (c.kind.mot ≠ .rapid)) = [plunge] := by
      simp [u, s, d, k1]
    rw [this]
    exact .cons ⟨k1, k2, k3⟩ (ih h2)

theorem forall₂_feeds {es : List Event} {cs : List Motion} (h : List.Forall₂ FollowsMove es cs) :
    List.Forall₂ FollowsMove (es.filter isFeedMove) (cs.filter (fun c => decide (c.kind.mot ≠ .rapid))) := by
  induction h with
  | nil => exact .nil
  | @cons e c es cs h _ ih =>
    have h' := h
    obtain ⟨⟨tgt, ctr, hact, -⟩, -⟩ := h'
    by_cases hk : c.kind.mot = .rapid
    · have : isFeedMove e = false := by simp [isFeedMove, hact, hk]
      simpa [this, hk] using ih
    · have : isFeedMove e = true := by simp [isFeedMove, hact, hk]
      rw [List.filter_cons_of_pos this, List.filter_cons_of_pos (by simpa using hk)]
      exact .cons h ih

theorem forall₂_comp {α β γ : Type} {R : α → β → Prop} {S : β → γ → Prop} {T : α → γ → Prop} {as : List α} {bs : List β} {cs : List γ}
    (h1 : List.Forall₂ R as bs) (h2 : List.Forall₂ S bs cs) (h : ∀ a ∈ as, ∀ b c, R a b → S b c → T a c) : List.Forall₂ T as cs := by
  induction h1 generalizing cs with
  | nil => cases h2; exact .nil
  | cons r _ ih =>
    cases h2 with
    | cons s h2 =>
      exact .cons (h _ (by simp) _ _ r s) (ih h2 fun a ha => h a (by simp [ha]))

/-- C140.  The course of C54 in floating point: every move starts where the previous one ended; X and Y only change in rapids at the
operation-safe height; feed moves go straight down from the surface to the negative absolute depth with the job's feed; rapids end at the
operation-safe height or on the surface. -/
theorem C140_safe_motion {sq : ℚ → ℚ} (hs : SquaresUpToUlp sq) {world : Vec → Vec} {center : List Edge → Except Err Vec}
    (hw : ∀ v, IsDouble (world v).x ∧ IsDouble (world v).y) {objs : List DrillObj} {d : ℚ} {j : Job} {cs : List Motion}
    (h : drill64 sq world center (some objs) (some d) j = .ok cs) :
    Connected {} cs ∧
      (∀ c ∈ cs, Lateral c → c.kind.mot = .rapid ∧ c.start.z = some j.opSafeHeight ∧ c.fin.z = some j.opSafeHeight) ∧
      (∀ c ∈ cs, c.kind.mot ≠ .rapid → c.kind.mot = .linear ∧ ¬ Lateral c ∧ c.start.z = some 0 ∧
        c.fin.z = some (-|d|) ∧ c.feed = some j.feed) ∧
      (∀ c ∈ cs, c.kind.mot = .rapid → c.fin.z = some j.opSafeHeight ∨ c.fin.z = some 0) := by
  obtain ⟨-, ps, -, -, h, -⟩ := C137_order hs hw h
  exact holesMoves_safe h

/-- C140, end to end in floating point.  Whatever was done before and after in the job, the program runs, and in the part of the drilling
operation the feed moves are, one by one, borings from height 0 to the printed depth with the spindle running and the right tool in it, one
for each requested hole, at its place up to printing and the kernel's error, beginning with the first hole and in an order that goes on to a
nearest hole up to rounding. -/
theorem C140_drill {sq : ℚ → ℚ} (hs : SquaresUpToUlp sq) {world : Frame → Vec → Vec} {center : List Edge → Except Err Vec}
    {objs : List DrillObj} {d : ℚ} {ε : Vec → ℚ} {tool : Option Tool} {j0 j1 j2 jf : Job} {before after : List Request} (m : Machine) (h0 : InitOK j0)
    (hw : ∀ v, IsDouble (world j0.top v).x ∧ IsDouble (world j0.top v).y) (hε : ∀ v, PtNear (ε v) (world j0.top v).xy (j0.top.toWorld v).xy)
    (hn : ∀ v, j0.toolNumber = some v → NumOK v)
    (hok : ChainOK j0 (before ++ drillRequest64 sq world center (some objs) (some d) tool :: after))
    (h1 : j0.chain before = .ok j1) (h2 : (j1.call (drillRequest64 sq world center (some objs) (some d) tool)).2 = .ok j2)
    (h3 : j2.chain after = .ok jf) (hend : m.ended = false)
    (htool : ∀ n, j0.toolNumber = some n → m.tool = some n.value) :
    ∃ t m' pre part post centres vs, jf.toGcode = .ok t ∧ runText m t = some (m', pre ++ part ++ post) ∧
      List.Forall₂ (HoleCentres center) objs centres ∧ vs.Perm centres.flatten ∧ vs ≠ [] ∧
      (vs.map (fun v => (world j0.top v).xy)).head? = (centres.flatten.map (fun v => (world j0.top v).xy)).head? ∧
      NearestOrderUpTo (vs.map (fun v => (world j0.top v).xy)) ∧
      List.Forall₂ (fun e v => ∃ q, Bores 0 (rnd 3 (-|d|)) q e ∧ PtNear (ε v + 1 / 2000) q (j0.top.toWorld v).xy ∧
        ∀ n, (j1.settings.inherit tool).toolNumber = some n → e.st.tool = some n.value) (part.filter isFeedMove) vs := by
  obtain ⟨t, m', pre, part, post, cs, e1, e2, hcs, -, hfol, hpart⟩ := C94_followed m h0 hn hok h1 h2 h3 hend htool
  have hb : SameBase j0 (j1.updateTool tool).2 := updateTool_base (chain_base (by unfold SameBase; rfl) h1) _
  have htop : (j1.updateTool tool).2.top = j0.top := (sameBase_heights hb).2.2
  have hcs : drill64 sq (world (j1.updateTool tool).2.top) center (some objs) (some d) (j1.updateTool tool).2 = .ok cs := hcs
  rw [htop] at hcs
  obtain ⟨centres, ps, g1, -, g3, g4, g5, g6, g7⟩ := C137_order hs hw hcs
  have hfol := forall₂_feeds (hfol (tracks_connected (holesMoves_safe g3).1))
  have hff : (part.filter isMove).filter isFeedMove = part.filter isFeedMove := by
    rw [List.filter_filter]
    congr 1
    funext e
    cases hfe : isFeedMove e
    · simp
    · simp [isMove_of_isFeedMove hfe]
  rw [hff] at hfol
  obtain ⟨vs, hvs, rfl⟩ : ∃ vs : List Vec, vs.Perm centres.flatten ∧ vs.map (fun v => (world j0.top v).xy) = ps := by
    have h := congrFun (congrFun (List.eq_map_comp_perm (fun v : Vec => (world j0.top v).xy)).symm ps) centres.flatten
    obtain ⟨vs, he, hp⟩ := h.mp g4
    exact ⟨vs, hp, he.symm⟩
  refine ⟨t, m', pre, part, post, centres, vs, e1, e2, g1, hvs, fun h => g6 (by simp [h]), g5, g7, ?_⟩
  have hpl := holesMoves_plunges g3
  rw [List.forall₂_map_right_iff] at hpl
  refine forall₂_comp hfol hpl fun e he c v hec hcv => ?_
  obtain ⟨hem, hf⟩ := List.mem_filter.mp he
  refine ⟨_, bores_of_follows hec hcv (hpart e hem).2, ?_, (hpart e hem).1 (isMove_of_isFeedMove hf)⟩
  obtain ⟨a1, a2⟩ := hε v
  have r1 := abs_rnd_sub_le 3 (world j0.top v).xy.x
  have r2 := abs_rnd_sub_le 3 (world j0.top v).xy.y
  norm_num at r1 r2
  constructor
  · have := abs_add_le (rnd 3 (world j0.top v).xy.x - (world j0.top v).xy.x) ((world j0.top v).xy.x - (j0.top.toWorld v).xy.x)
    rw [sub_add_sub_cancel] at this
    change |rnd 3 (world j0.top v).xy.x - (j0.top.toWorld v).xy.x| ≤ _
    linarith
  · have := abs_add_le (rnd 3 (world j0.top v).xy.y - (world j0.top v).xy.y) ((world j0.top v).xy.y - (j0.top.toWorld v).xy.y)
    rw [sub_add_sub_cancel] at this
    change |rnd 3 (world j0.top v).xy.y - (j0.top.toWorld v).xy.y| ≤ _
    linarith

/-- Three holes, with a kernel that rounds. -/
def holes64 : List DrillObj := [.vector ⟨1 / 10, 2 / 10, 0⟩, .vector ⟨5, 7, 0⟩, .vector ⟨3 / 10, 1 / 3, 0⟩]

def holesRequest64 : Request :=
  drillRequest64 (fun x => b64 (x * x)) (fun f v => world64 (f.toWorld v)) drillCenter (some holes64) (some 3) none

theorem holesRequest64_call : ∃ cs, holesRequest64.gen demoInit = .ok cs ∧ RequestOK demoInit holesRequest64 ∧
    (demoInit.call holesRequest64).2 = .ok (demoInit.addOperation "Drill".toList (cs.map .motion)) :=
  call_good rfl rfl (by unfold SafeName; decide) (by decide +kernel)

/-- The error of rounding the coordinates of a point. -/
def placeErr (v : Vec) : ℚ := 2 ^ (-53 : ℤ) * max |v.x| |v.y| + 2 ^ (-1075 : ℤ)

theorem world64_near (v : Vec) : PtNear (placeErr v) (world64 v).xy v.xy := by
  have h1 := mul_le_mul_of_nonneg_left (le_max_left |v.x| |v.y|) (two_zpow_pos (-53)).le
  have h2 := mul_le_mul_of_nonneg_left (le_max_right |v.x| |v.y|) (two_zpow_pos (-53)).le
  exact ⟨(b64_err v.x).trans (add_le_add_left h1 _), (b64_err v.y).trans (add_le_add_left h2 _)⟩

/-- The hypotheses of `C140_drill`. -/
example : ∃ j2 t m' pre part post vs, (demoInit.call holesRequest64).2 = .ok j2 ∧ j2.toGcode = .ok t ∧
    runText { tool := some 1 } t = some (m', pre ++ part ++ post) ∧ vs.Perm [⟨1 / 10, 2 / 10, 0⟩, ⟨5, 7, 0⟩, ⟨3 / 10, 1 / 3, 0⟩] ∧
    List.Forall₂ (fun e v => ∃ q, Bores 0 (rnd 3 (-|3|)) q e ∧
      PtNear (placeErr (demoInit.top.toWorld v) + 1 / 2000) q (demoInit.top.toWorld v).xy ∧ e.st.tool = some 1) (part.filter isFeedMove) vs := by
  obtain ⟨cs, -, hr, h⟩ := holesRequest64_call
  obtain ⟨t, m', pre, part, post, centres, vs, h1, h2, h3, h4, -, -, -, h8⟩ := C140_drill (before := []) (after := []) (tool := none)
    (objs := holes64) (center := drillCenter) (d := 3) squares_b64
    (world := fun f v => world64 (f.toWorld v)) (ε := fun v => placeErr (demoInit.top.toWorld v)) (j0 := demoInit)
    { tool := some 1 } demo_reach.1 (fun v => ⟨b64_isDouble _, b64_isDouble _⟩)
    (fun v => world64_near _)
    (by rintro v ⟨⟩; exact numOK_int _) ⟨hr, fun _ _ => trivial⟩ rfl h rfl rfl (by rintro n ⟨⟩; rfl)
  have hc : centres = [[⟨1 / 10, 2 / 10, 0⟩], [⟨5, 7, 0⟩], [⟨3 / 10, 1 / 3, 0⟩]] := by
    obtain _ | ⟨a1, _ | ⟨a2, _ | ⟨a3, _ | _⟩⟩⟩ := h3
    cases a1
    cases a2
    cases a3
    rfl
  subst hc
  refine ⟨_, t, m', pre, part, post, vs, h, h1, h2, h4, h8.imp ?_⟩
  rintro e v ⟨q, a1, a2, a3⟩
  exact ⟨q, a1, a2, a3 _ rfl⟩

end CQ
