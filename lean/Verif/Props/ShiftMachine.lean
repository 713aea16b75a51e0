import Verif.Props.Shift
import Verif.Props.Arcs

/-! # C123 on the machine -/

namespace CQ

theorem chainMoves_side {s : Pt} {rs rs' : List Request} : ∀ {j : Job}, List.Forall₂ (SideWork s j.top) rs rs' →
    chainMoves (j.side s) rs' = (chainMoves j rs).map (List.map (Motion.side s)) := by
  induction rs generalizing rs' with
  | nil => intro j h; cases h; rfl
  | cons r rs ih =>
    intro j h
    cases h with
    | cons hr hrs =>
      obtain ⟨h1, h2⟩ := call_side hr
      obtain ⟨u1, u2⟩ := updateTool_side s j r.tool
      simp only [chainMoves, h1, hr.tool, u1, hr.gen _ u2]
      cases hg : r.gen (j.updateTool r.tool).2 with
      | error e => rfl
      | ok cs =>
        cases hc : (j.call r).2 with
        | error e => rfl
        | ok j' =>
          simp only [Except.map, List.map_cons]
          rw [← h2 j' hc] at hrs
          rw [ih hrs]

theorem chainMoves_ok {j : Job} {rs : List Request} (h : ChainOK j rs) : ∀ cs ∈ chainMoves j rs, ∀ c ∈ cs, MotionOK c := by
  induction rs generalizing j with
  | nil => intro cs hcs; cases hcs
  | cons r rs ih =>
    intro cs hcs
    simp only [chainMoves] at hcs
    split at hcs
    · rename_i cs' j' hg hj
      rcases List.mem_cons.mp hcs with rfl | hcs
      · exact h.1.gen cs hg
      · exact ih (h.2 j' hj) cs hcs
    · cases hcs

theorem axis_side {g b a b' a' : Option ℚ} {d : ℚ} (h : AxisAt g b a) (h' : AxisAt (g.map (· + d)) b' a') :
    AxisBeside d b a b' a' := by
  cases g with
  | none => exact .inr ⟨h.2 rfl, h'.2 rfl⟩
  | some v =>
    refine .inl ⟨_, _, h.1 v rfl, h'.1 (v + d) rfl, ?_⟩
    have e1 := abs_le.mp (abs_rnd3 v)
    have e2 := abs_le.mp (abs_rnd3 (v + d))
    rw [abs_le]
    constructor <;> linarith [e1.1, e1.2, e2.1, e2.2]

theorem centreOff_side {c : Motion} (h : MotionOK c) (s : Pt) : centreOff (c.side s) = centreOff c := by
  have hax : ∀ {a b : Option ℚ} (d : ℚ), ArcAxisOK a b → offAxis (a.map (· + d)) (b.map (· + d)) = offAxis a b := by
    intro a b d hab
    cases a with
    | none => rfl
    | some v =>
      obtain ⟨w, rfl, -⟩ := hab v rfl
      simp [offAxis]
  unfold centreOff
  have hk : (c.side s).kind = c.kind := rfl
  rw [hk]
  split
  · rename_i harc
    obtain ⟨h1, h2, -⟩ := h.arc harc
    simp only [Motion.side, AddrVec.side, hax _ h1, hax _ h2]
  · rfl

theorem performs_side {e e' : Event} {c : Motion} {s : Pt} (hc : MotionOK c) (h : Performs e c) (h' : Performs e' (c.side s)) :
    MovesBeside s e e' := by
  obtain ⟨tgt, ctr, ha, hx, hy, hz, hctr, -⟩ := h
  obtain ⟨tgt', ctr', ha', hx', hy', hz', hctr', -⟩ := h'
  rw [centreOff_side hc] at hctr'
  subst hctr hctr'
  refine ⟨c.kind.mot, tgt, tgt', centreOff c, ha, ha', axis_side hx hx', axis_side hy hy', ?_⟩
  have hz' : AxisAt c.fin.z e'.st.pos.z tgt'.z := hz'
  cases hg : c.fin.z with
  | none => exact .inr ⟨hz.2 hg, hz'.2 hg⟩
  | some v => exact .inl ⟨_, hz.1 v hg, hz'.1 v hg⟩

/-- C123 on the machine.  If every call does its work moved by `s`, then running the program for the moved part makes, call by
call and one by one, the moves of the original program, moved by `s` (to within 0.001, since coordinates are printed with three
digits). -/
theorem C123_machine {s : Pt} {j0 jf : Job} {rs rs' : List Request} (m : Machine) (h0 : InitOK j0)
    (hn : ∀ v, j0.toolNumber = some v → NumOK v) (hok : ChainOK j0 rs) (hok' : ChainOK j0 rs')
    (hw : List.Forall₂ (SideWork s j0.top) rs rs') (h : j0.chain rs = .ok jf) (hend : m.ended = false)
    (htool : ∀ n, j0.toolNumber = some n → m.tool = some n.value) :
    ∃ jf' t t' m1 m1' a b c a' b' c' evss evss', j0.chain rs' = .ok jf' ∧ jf.toGcode = .ok t ∧ jf'.toGcode = .ok t' ∧
      runText m t = some (m1, a :: (evss.flatten ++ [b, c])) ∧ runText m t' = some (m1', a' :: (evss'.flatten ++ [b', c'])) ∧
      evss.length = rs.length ∧ (isMove a = false ∧ isMove b = false ∧ isMove c = false) ∧
      (isMove a' = false ∧ isMove b' = false ∧ isMove c' = false) ∧
      List.Forall₂ (fun evs evs' => List.Forall₂ (MovesBeside s) (evs.filter isMove) (evs'.filter isMove)) evss evss' := by
  have hops := h0.1
  have e : j0.side s = j0 := by
    simp only [Job.side, hops, List.map_nil]
    rw [← hops]
  have h' : j0.chain rs' = .ok (jf.side s) := by
    rw [C123_program hops hw, h]
    rfl
  obtain ⟨t, m1, a, b, c, evss, p1, p2, p3, p4, p5, p6, p7, -⟩ := chain_program m h0 hn hok h hend htool
  obtain ⟨t', m1', a', b', c', evss', q1, q2, q3, q4, q5, q6, q7, -⟩ := chain_program m h0 hn hok' h' hend htool
  have hlen : evss.length = rs.length := by
    rw [p7.length_eq]
    clear p7 hw hok h q7 p6
    generalize j0.settings = st
    induction rs generalizing st with
    | nil => rfl
    | cons r rs ih => simp only [requestSettings, List.length_cons, ih]
  refine ⟨_, t, t', m1, m1', a, b, c, a', b', c', evss, evss', h', p1, q1, p2, q2, hlen, ?_, ?_, ?_⟩
  · simp [isMove, p3, p4, p5]
  · simp [isMove, q3, q4, q5]
  · have hm : chainMoves j0 rs' = (chainMoves j0 rs).map (List.map (Motion.side s)) := by
      rw [← chainMoves_side hw, e]
    rw [hm] at q6
    have hc := chainMoves_ok hok
    clear p2 p7 q2 q7 hlen hm
    generalize chainMoves j0 rs = css at p6 q6 hc
    revert hc q6 evss'
    induction p6 with
    | nil =>
      intro evss' q6 _
      rw [List.map_nil] at q6
      cases q6
      exact .nil
    | @cons evs cs evss css hp hps ih =>
      intro evss' q6 hc
      rw [List.map_cons] at q6
      cases q6 with
      | @cons evs' _ evss'' _ hq hqs =>
        refine .cons ?_ (ih _ hqs (fun cs hcs => hc cs (by simp [hcs])))
        have hcs := hc cs (by simp)
        clear hc ih hps hqs
        generalize evs.filter isMove = l at hp ⊢
        generalize evs'.filter isMove = l' at hq ⊢
        revert hq l'
        induction hp with
        | nil => intro l' hq; rw [List.map_nil] at hq; cases hq; exact .nil
        | @cons x c l cs hx _ ih2 =>
          intro l' hq
          rw [List.map_cons] at hq
          cases hq with
          | cons hy hys => exact .cons (performs_side (hcs c (by simp)) hx hy) (ih2 (fun d hd => hcs d (by simp [hd])) _ hys)

end CQ
