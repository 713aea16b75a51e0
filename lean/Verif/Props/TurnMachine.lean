import Verif.Props.Turn
import Verif.Props.ShiftMachine

/-! # C136 on the machine -/

namespace CQ

theorem chainMoves_turn {s : Turn} {rs rs' : List Request} : ∀ {j : Job}, List.Forall₂ (TurnWork s j.top) rs rs' →
    chainMoves (j.turn s) rs' = (chainMoves j rs).map (List.map (Motion.turn s)) := by
  induction rs generalizing rs' with
  | nil => intro j h; cases h; rfl
  | cons r rs ih =>
    intro j h
    cases h with
    | cons hr hrs =>
      obtain ⟨h1, h2⟩ := call_turn hr
      obtain ⟨u1, u2⟩ := updateTool_turn s j r.tool
      simp only [chainMoves, h1, hr.tool, u1, hr.gen _ u2]
      cases hg : r.gen (j.updateTool r.tool).2 with
      | error e => rfl
      | ok cs =>
        cases hc : (j.call r).2 with
        | error e => rfl
        | ok j' =>
          simp only [Except.map, List.map_cons]
          rw [← h2 j' hc] at hrs
          rw [ih hrs]

theorem turn_entry (s : Turn) : |s.a| ≤ 1 ∧ |s.b| ≤ 1 ∧ |s.c| ≤ 1 ∧ |s.d| ≤ 1 := by
  have h1 := s.unitX; have h2 := s.unitY
  have key : ∀ u v : ℚ, u * u + v * v = 1 → |u| ≤ 1 ∧ |v| ≤ 1 := by
    intro u v h
    constructor <;> apply abs_le_one_iff_mul_self_le_one.mpr <;> nlinarith [mul_self_nonneg u, mul_self_nonneg v]
  exact ⟨(key _ _ h1).1, (key _ _ h2).1, (key _ _ h1).2, (key _ _ h2).2⟩

theorem turnedTo_rnd (s : Turn) (x y : ℚ) :
    TurnedTo s (rnd 3 x) (rnd 3 y) (rnd 3 (s.a * x + s.b * y)) (rnd 3 (s.c * x + s.d * y)) := by
  obtain ⟨ha, hb, hc, hd⟩ := turn_entry s
  have key : ∀ u v : ℚ, |u| ≤ 1 → |v| ≤ 1 → |rnd 3 (u * x + v * y) - (u * rnd 3 x + v * rnd 3 y)| ≤ 3 / 2000 := by
    intro u v hu hv
    have e0 := abs_rnd3 (u * x + v * y)
    have e1 : |u * (rnd 3 x - x)| ≤ 1 / 2000 := by
      rw [abs_mul]
      calc |u| * |rnd 3 x - x| ≤ 1 * (1 / 2000) := mul_le_mul hu (abs_rnd3 x) (abs_nonneg _) (by norm_num)
        _ = _ := by norm_num
    have e2 : |v * (rnd 3 y - y)| ≤ 1 / 2000 := by
      rw [abs_mul]
      calc |v| * |rnd 3 y - y| ≤ 1 * (1 / 2000) := mul_le_mul hv (abs_rnd3 y) (abs_nonneg _) (by norm_num)
        _ = _ := by norm_num
    rw [abs_le] at *
    constructor <;> nlinarith [e0.1, e0.2, e1.1, e1.2, e2.1, e2.2]
  exact ⟨key _ _ ha hb, key _ _ hc hd⟩

theorem turn_mot (s : Turn) (k : MKind) : (s.kind k).mot = s.mot k.mot := by
  by_cases h : s.det < 0 <;> cases k <;> simp [Turn.kind, MKind.mot, Turn.mot, h]

theorem turn_isArc (s : Turn) (k : MKind) : (s.kind k).isArc = k.isArc := by
  cases k <;> simp only [Turn.kind] <;> first | rfl | (split <;> rfl)

theorem performs_turn {e e' : Event} {c : Motion} {s : Turn} (hc : c.Planar) (h : Performs e c) (h' : Performs e' (c.turn s)) :
    MovesTurned s e e' := by
  obtain ⟨tgt, ctr, ha, hx, hy, hz, hctr, -⟩ := h
  obtain ⟨tgt', ctr', ha', hx', hy', hz', hctr', -⟩ := h'
  have hk : (c.turn s).kind.mot = s.mot c.kind.mot := turn_mot s c.kind
  rw [hk] at ha'
  have hfz : (c.turn s).fin.z = c.fin.z := by
    simp only [Motion.turn, AddrVec.turn]
    split <;> rfl
  rw [hfz] at hz'
  refine ⟨c.kind.mot, tgt, tgt', ctr, ctr', ha, ha', ?_, ?_, ?_⟩
  · have hp := hc.fin
    simp only [Motion.turn, AddrVec.turn] at hx' hy'
    cases h1 : c.fin.x with
    | none =>
      cases h2 : c.fin.y with
      | some y => rw [h1, h2] at hp; cases hp
      | none =>
        simp only [h1, h2] at hx' hy'
        exact .inr ⟨hx.2 h1, hy.2 h2, hx'.2 rfl, hy'.2 rfl⟩
    | some x =>
      cases h2 : c.fin.y with
      | none => rw [h1, h2] at hp; cases hp
      | some y =>
        simp only [h1, h2] at hx' hy'
        exact .inl ⟨_, _, _, _, hx.1 x h1, hy.1 y h2, hx'.1 _ rfl, hy'.1 _ rfl, turnedTo_rnd s x y⟩
  · cases hg : c.fin.z with
    | none => exact .inr ⟨hz.2 hg, hz'.2 hg⟩
    | some v => exact .inl ⟨_, hz.1 v hg, hz'.1 v hg⟩
  · subst hctr hctr'
    have ha2 : (c.turn s).kind.isArc = c.kind.isArc := turn_isArc s c.kind
    unfold centreOff
    rw [ha2]
    by_cases harc : c.kind.isArc = true
    · obtain ⟨s1, s2⟩ := hc.start harc
      obtain ⟨c1, c2⟩ := hc.center harc
      obtain ⟨sx, hsx⟩ := Option.isSome_iff_exists.mp s1
      obtain ⟨sy, hsy⟩ := Option.isSome_iff_exists.mp s2
      obtain ⟨cx, hcx⟩ := Option.isSome_iff_exists.mp c1
      obtain ⟨cy, hcy⟩ := Option.isSome_iff_exists.mp c2
      right
      rw [if_pos harc, if_pos harc]
      refine ⟨_, _, _, _, rfl, rfl, rfl, rfl, ?_, ?_⟩
      · simp only [Motion.turn, AddrVec.turn, hsx, hsy, hcx, hcy, offAxis, Option.getD]
        have := turnedTo_rnd s (cx - sx) (cy - sy)
        have e1 : s.a * cx + s.b * cy - (s.a * sx + s.b * sy) = s.a * (cx - sx) + s.b * (cy - sy) := by ring
        have e2 : s.c * cx + s.d * cy - (s.c * sx + s.d * sy) = s.c * (cx - sx) + s.d * (cy - sy) := by ring
        rw [e1, e2]
        exact this
      · simp only [Motion.turn, AddrVec.turn, hsx, hsy, hcx, hcy]
    · left
      rw [if_neg harc, if_neg harc]
      refine ⟨rfl, rfl, ?_, ?_⟩ <;> (revert harc; cases c.kind <;> simp [MKind.isArc, MKind.mot])

/-- C136 on the machine.  If every call does its work turned by `s`, then running the program for the turned part makes, call by
call and one by one, the moves of the original program, turned (to within 0.0015, since coordinates are printed with three
digits), with arcs run through in the other direction if `s` is a reflection. -/
theorem C136_machine {s : Turn} {j0 jf : Job} {rs rs' : List Request} (m : Machine) (h0 : InitOK j0)
    (hn : ∀ v, j0.toolNumber = some v → NumOK v) (hok : ChainOK j0 rs) (hok' : ChainOK j0 rs')
    (hw : List.Forall₂ (TurnWork s j0.top) rs rs') (hp : ∀ r ∈ rs, ∀ j cs, r.gen j = .ok cs → ∀ c ∈ cs, c.Planar)
    (h : j0.chain rs = .ok jf) (hend : m.ended = false)
    (htool : ∀ n, j0.toolNumber = some n → m.tool = some n.value) :
    ∃ jf' t t' m1 m1' a b c a' b' c' evss evss', j0.chain rs' = .ok jf' ∧ jf.toGcode = .ok t ∧ jf'.toGcode = .ok t' ∧
      runText m t = some (m1, a :: (evss.flatten ++ [b, c])) ∧ runText m t' = some (m1', a' :: (evss'.flatten ++ [b', c'])) ∧
      evss.length = rs.length ∧ (isMove a = false ∧ isMove b = false ∧ isMove c = false) ∧
      (isMove a' = false ∧ isMove b' = false ∧ isMove c' = false) ∧
      List.Forall₂ (fun evs evs' => List.Forall₂ (MovesTurned s) (evs.filter isMove) (evs'.filter isMove)) evss evss' := by
  have hops := h0.1
  have e : j0.turn s = j0 := by
    simp only [Job.turn, hops, List.map_nil]
    rw [← hops]
  have h' : j0.chain rs' = .ok (jf.turn s) := by
    rw [C136_program hops hw, h]
    rfl
  obtain ⟨t, m1, a, b, c, evss, p1, p2, p3, p4, p5, p6, p7, -⟩ := chain_program m h0 hn hok h hend htool
  obtain ⟨t', m1', a', b', c', evss', q1, q2, q3, q4, q5, q6, q7, -⟩ := chain_program m h0 hn hok' h' hend htool
  have hlen : evss.length = rs.length := by
    rw [p7.length_eq]
    clear p7 hw hok h q7 p6 hp
    generalize j0.settings = st
    induction rs generalizing st with
    | nil => rfl
    | cons r rs ih => simp only [requestSettings, List.length_cons, ih]
  refine ⟨_, t, t', m1, m1', a, b, c, a', b', c', evss, evss', h', p1, q1, p2, q2, hlen, ?_, ?_, ?_⟩
  · simp [isMove, p3, p4, p5]
  · simp [isMove, q3, q4, q5]
  · have hm : chainMoves j0 rs' = (chainMoves j0 rs).map (List.map (Motion.turn s)) := by
      rw [← chainMoves_turn hw, e]
    rw [hm] at q6
    have hc : ∀ cs ∈ chainMoves j0 rs, ∀ c ∈ cs, c.Planar := by
      clear p6 q6 hm h0 hok hok' hw h hn htool p7 q7 hlen h' hops e
      induction rs generalizing j0 with
      | nil => intro cs hcs; cases hcs
      | cons r rs ih =>
        intro cs hcs
        simp only [chainMoves] at hcs
        split at hcs
        · rename_i cs' j' hg hj
          rcases List.mem_cons.mp hcs with rfl | hcs
          · exact hp r (by simp) _ cs hg
          · exact ih (fun r hr => hp r (by simp [hr])) cs hcs
        · cases hcs
    clear p2 p7 q2 q7 hlen hm
    generalize chainMoves j0 rs = css at p6 q6 hc
    revert hc q6 evss'
    induction p6 with
    | nil =>
      intro evss' q6 _
      rw [List.map_nil] at q6
      cases q6
      exact .nil
    | @cons evs cs evss css hp hps ih =>
      intro evss' q6 hc
      rw [List.map_cons] at q6
      cases q6 with
      | @cons evs' _ evss'' _ hq hqs =>
        refine .cons ?_ (ih _ hqs (fun cs hcs => hc cs (by simp [hcs])))
        have hcs := hc cs (by simp)
        clear hc ih hps hqs
        generalize evs.filter isMove = l at hp ⊢
        generalize evs'.filter isMove = l' at hq ⊢
        revert hq l'
        induction hp with
        | nil => intro l' hq; rw [List.map_nil] at hq; cases hq; exact .nil
        | @cons x c l cs hx _ ih2 =>
          intro l' hq
          rw [List.map_cons] at hq
          cases hq with
          | cons hy hys => exact .cons (performs_turn (hcs c (by simp)) hx hy) (ih2 (fun d hd => hcs d (by simp [hd])) _ hys)

end CQ
