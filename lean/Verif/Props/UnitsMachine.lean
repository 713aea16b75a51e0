import Verif.Props.Units
import Verif.Props.ShiftMachine

/-! # C134 on the machine -/

namespace CQ

theorem chainMoves_conv {κ : Units} {j : Job} {rs rs' : List Request} (h : UnitChain κ j rs rs') :
    chainMoves (j.conv κ) rs' = (chainMoves j rs).map (List.map (Motion.conv κ)) := by
  induction h with
  | nil j => rfl
  | @cons j r r' rs rs' hr hrs ih =>
    simp only [chainMoves, call_conv hr, hr.tool, updateTool_conv, hr.gen]
    cases hg : r.gen (j.updateTool r.tool).2 with
    | error e => rfl
    | ok cs =>
      cases hc : (j.call r).2 with
      | error e => rfl
      | ok j' =>
        simp only [Except.map, List.map_cons]
        rw [ih j' hc]

theorem rnd3_conv (κ : Units) (v : ℚ) : |rnd 3 (κ.c * v) - κ.c * rnd 3 v| ≤ (1 + κ.c) / 2000 := by
  have e1 := abs_le.mp (abs_rnd3 v)
  have e2 := abs_le.mp (abs_rnd3 (κ.c * v))
  have hp := κ.pos
  rw [abs_le]
  constructor <;> nlinarith [e1.1, e1.2, e2.1, e2.2]

theorem axis_conv {g b a b' a' : Option ℚ} {κ : Units} (h : AxisAt g b a) (h' : AxisAt (g.map (κ.c * ·)) b' a') :
    AxisScaled κ.c b a b' a' := by
  cases g with
  | none => exact .inr ⟨h.2 rfl, h'.2 rfl⟩
  | some v => exact .inl ⟨_, _, h.1 v rfl, h'.1 (κ.c * v) rfl, rnd3_conv κ v⟩

theorem offAxis_conv (κ : Units) (a b : Option ℚ) : offAxis (a.map (κ.c * ·)) (b.map (κ.c * ·)) = κ.c * offAxis a b := by
  cases a with
  | none => simp [offAxis]
  | some v => cases b <;> simp [offAxis, mul_sub]

theorem centre_conv (κ : Units) (c : Motion) : CentreScaled κ.c (centreOff c) (centreOff (c.conv κ)) := by
  have hk : (c.conv κ).kind = c.kind := rfl
  unfold centreOff
  rw [hk]
  split
  · simp only [Motion.conv, AddrVec.conv, offAxis_conv]
    exact .inr ⟨_, _, _, _, _, _, rfl, rfl, rnd3_conv κ _, rnd3_conv κ _, rnd3_conv κ _⟩
  · exact .inl ⟨rfl, rfl⟩

theorem performs_conv {e e' : Event} {c : Motion} {κ : Units} (h : Performs e c) (h' : Performs e' (c.conv κ)) :
    MovesScaled κ.c e e' := by
  obtain ⟨tgt, ctr, ha, hx, hy, hz, hctr, -⟩ := h
  obtain ⟨tgt', ctr', ha', hx', hy', hz', hctr', -⟩ := h'
  subst hctr hctr'
  exact ⟨c.kind.mot, tgt, tgt', _, _, ha, ha', axis_conv hx hx', axis_conv hy hy', axis_conv hz hz', centre_conv κ c⟩

/-- C134 on the machine.  If every call does in the new units what the original call does, then running the program in the new
units makes, call by call and one by one, the moves of the original program in the new units, up to the rounding of both programs
to three digits. -/
theorem C134_machine {κ : Units} {j0 jf : Job} {rs rs' : List Request} (m : Machine) (h0 : InitOK j0) (h0' : InitOK (j0.conv κ))
    (hn : ∀ v, j0.toolNumber = some v → NumOK v) (hok : ChainOK j0 rs) (hok' : ChainOK (j0.conv κ) rs')
    (hw : UnitChain κ j0 rs rs') (h : j0.chain rs = .ok jf) (hend : m.ended = false)
    (htool : ∀ n, j0.toolNumber = some n → m.tool = some n.value) :
    ∃ jf' t t' m1 m1' a b c a' b' c' evss evss', (j0.conv κ).chain rs' = .ok jf' ∧ jf.toGcode = .ok t ∧ jf'.toGcode = .ok t' ∧
      runText m t = some (m1, a :: (evss.flatten ++ [b, c])) ∧ runText m t' = some (m1', a' :: (evss'.flatten ++ [b', c'])) ∧
      evss.length = rs.length ∧ (isMove a = false ∧ isMove b = false ∧ isMove c = false) ∧
      (isMove a' = false ∧ isMove b' = false ∧ isMove c' = false) ∧
      List.Forall₂ (fun evs evs' => List.Forall₂ (MovesScaled κ.c) (evs.filter isMove) (evs'.filter isMove)) evss evss' := by
  have h' : (j0.conv κ).chain rs' = .ok (jf.conv κ) := by
    rw [C134_program hw, h]
    rfl
  obtain ⟨t, m1, a, b, c, evss, p1, p2, p3, p4, p5, p6, p7, -⟩ := chain_program m h0 hn hok h hend htool
  obtain ⟨t', m1', a', b', c', evss', q1, q2, q3, q4, q5, q6, q7, -⟩ := chain_program m h0' hn hok' h' hend htool
  have hlen : evss.length = rs.length := by
    rw [p7.length_eq]
    clear p7 hw hok h q7 p6
    generalize j0.settings = st
    induction rs generalizing st with
    | nil => rfl
    | cons r rs ih => simp only [requestSettings, List.length_cons, ih]
  refine ⟨_, t, t', m1, m1', a, b, c, a', b', c', evss, evss', h', p1, q1, p2, q2, hlen, ?_, ?_, ?_⟩
  · simp [isMove, p3, p4, p5]
  · simp [isMove, q3, q4, q5]
  · rw [chainMoves_conv hw] at q6
    clear p2 p7 q2 q7 hlen
    generalize chainMoves j0 rs = css at p6 q6
    revert q6 evss'
    induction p6 with
    | nil =>
      intro evss' q6
      rw [List.map_nil] at q6
      cases q6
      exact .nil
    | @cons evs cs evss css hp hps ih =>
      intro evss' q6
      rw [List.map_cons] at q6
      cases q6 with
      | @cons evs' _ evss'' _ hq hqs =>
        refine .cons ?_ (ih _ hqs)
        clear ih hps hqs
        generalize evs.filter isMove = l at hp ⊢
        generalize evs'.filter isMove = l' at hq ⊢
        revert hq l'
        induction hp with
        | nil => intro l' hq; rw [List.map_nil] at hq; cases hq; exact .nil
        | @cons x c l cs hx _ ih2 =>
          intro l' hq
          rw [List.map_cons] at hq
          cases hq with
          | cons hy hys => exact .cons (performs_conv hx hy) (ih2 _ hys)

end CQ
