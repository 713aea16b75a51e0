import Verif.Proofs.ProgramRun
import Verif.Spec.EndToEnd

/-! The program of a chain of calls, cut into the parts of the single calls. -/

namespace CQ

theorem call_ok {j j' : Job} {r : Request} (h : (j.call r).2 = .ok j') :
    r.pre j = .ok () ∧ ∃ cs, r.gen (j.updateTool r.tool).2 = .ok cs ∧
      j' = (j.updateTool r.tool).2.addOperation r.opName (cs.map .motion) := by
  unfold Job.call at h
  split at h
  · cases h
  · rename_i hp
    dsimp only at h
    split at h
    · cases h
    · rename_i cs hcs
      cases h
      exact ⟨hp, cs, hcs, rfl⟩

/-- The change block a tool argument asks for. -/
def changeCommands (j : Job) (t : Option Tool) : List Command → Prop := fun cs =>
  let s := j.settings.inherit t
  (needsToolChange j s ∧ cs = [.toolChange s.toolNumber s.speed j.coolant]) ∨
  (¬ needsToolChange j s ∧ needsSpeedChange j s ∧ cs = [.start s.speed j.coolant]) ∨
  (¬ needsToolChange j s ∧ ¬ needsSpeedChange j s ∧ cs = [])

theorem withSettings_allCommands (j : Job) (s : Settings) : (j.withSettings s).allCommands = j.allCommands := rfl

theorem addOperation_allCommands (j : Job) (n : Text) (cs : List Command) :
    (j.addOperation n cs).allCommands = j.allCommands ++ cs := by
  simp [Job.allCommands, Job.addOperation]

theorem updateTool_commands (j : Job) (t : Option Tool) :
    ∃ cs, changeCommands j t cs ∧ (j.updateTool t).2.allCommands = j.allCommands ++ cs ∧
      (j.updateTool t).2.settings = j.settings.inherit t ∧ (j.updateTool t).2.coolant = j.coolant := by
  cases t with
  | none =>
    refine ⟨[], Or.inr (Or.inr ⟨?_, ?_, rfl⟩), by simp [Job.updateTool], rfl, rfl⟩
    · simp [needsToolChange, Settings.inherit, Job.settings]
    · simp [needsSpeedChange, Settings.inherit, Job.settings]
  | some t =>
    rcases updateTool_some j t with ⟨h1, e⟩ | ⟨h1, h2, e⟩ | ⟨h1, h2, e⟩
    · refine ⟨_, Or.inl ⟨h1, rfl⟩, ?_, ?_, ?_⟩
      · rw [e]; exact addOperation_allCommands _ _ _
      · rw [e]; rfl
      · rw [e]; rfl
    · refine ⟨_, Or.inr (Or.inl ⟨h1, h2, rfl⟩), ?_, ?_, ?_⟩
      · rw [e]; exact addOperation_allCommands _ _ _
      · rw [e]; rfl
      · rw [e]; rfl
    · refine ⟨_, Or.inr (Or.inr ⟨h1, h2, rfl⟩), ?_, ?_, ?_⟩
      · rw [e]; simp [withSettings_allCommands]
      · rw [e]; rfl
      · rw [e]; rfl

theorem call_commands {j j' : Job} {r : Request} (h : (j.call r).2 = .ok j') :
    ∃ bs cs, changeCommands j r.tool bs ∧ r.gen (j.updateTool r.tool).2 = .ok cs ∧
      j'.allCommands = j.allCommands ++ (bs ++ cs.map .motion) ∧ j'.settings = j.settings.inherit r.tool ∧
      j'.coolant = j.coolant := by
  obtain ⟨-, cs, hcs, rfl⟩ := call_ok h
  obtain ⟨bs, h1, h2, h3, h4⟩ := updateTool_commands j r.tool
  refine ⟨bs, cs, h1, hcs, ?_, h3, h4⟩
  rw [addOperation_allCommands, h2, List.append_assoc]

/-- Moves leave everything but position, motion mode and feed. -/
theorem effects_motions (m : Machine) (cs : List Motion) :
    List.Forall₂ Performs (effects m (cs.map .motion)).2 cs ∧
      (∀ e ∈ (effects m (cs.map .motion)).2, e.st.tool = m.tool ∧ e.st.speed = m.speed ∧ e.st.lenOff = m.lenOff ∧
        isMove e = true) ∧
      (effects m (cs.map .motion)).1.tool = m.tool ∧ (effects m (cs.map .motion)).1.speed = m.speed ∧
      (effects m (cs.map .motion)).1.lenOff = m.lenOff := by
  induction cs generalizing m with
  | nil => simp [effects]
  | cons c cs ih =>
    obtain ⟨e, he, hp, hm⟩ := performs_effect m c
    have hw : (withFeed m c).tool = m.tool ∧ (withFeed m c).speed = m.speed ∧ (withFeed m c).lenOff = m.lenOff := by
      unfold withFeed; split <;> exact ⟨rfl, rfl, rfl⟩
    have he' : e.st = withFeed m c := by
      have : e ∈ (c.effect m).2 := by rw [he]; simp
      simp only [Motion.effect, List.mem_singleton] at this
      rw [this]
    obtain ⟨i1, i2, i3, i4, i5⟩ := ih (c.effect m).1
    have h1 : (c.effect m).1.tool = m.tool := hw.1
    have h2 : (c.effect m).1.speed = m.speed := hw.2.1
    have h3 : (c.effect m).1.lenOff = m.lenOff := hw.2.2
    simp only [List.map_cons, effects, Command.effect, he]
    refine ⟨.cons hp i1, ?_, ?_, ?_, ?_⟩
    · intro x hx
      simp only [List.cons_append, List.nil_append, List.mem_cons] at hx
      rcases hx with rfl | hx
      · rw [he']; exact ⟨hw.1, hw.2.1, hw.2.2, hm⟩
      · obtain ⟨j1, j2, j3, j4⟩ := i2 x hx
        exact ⟨j1.trans h1, j2.trans h2, j3.trans h3, j4⟩
    · rw [i3, h1]
    · rw [i4, h2]
    · rw [i5, h3]

theorem agrees_reach (e : AddrVec) (m : Pos) : Agrees e (reach e m) := by
  refine ⟨?_, ?_, ?_⟩ <;> intro v hv <;> simp [reach, hv]

theorem Agrees.mono {p q : AddrVec} {m : Pos} (h : Agrees q m) (hl : p.Le q) : Agrees p m :=
  ⟨fun v hv => h.1 v (hl.1 v hv), fun v hv => h.2.1 v (hl.2.1 v hv), fun v hv => h.2.2 v (hl.2.2 v hv)⟩

theorem agrees_empty (m : Pos) : Agrees {} m :=
  ⟨fun _ h => (by cases h), fun _ h => (by cases h), fun _ h => (by cases h)⟩

/-- Moves that track are performed from where they start. -/
theorem motions_stand (cs : List Motion) : ∀ (p : AddrVec) (m : Machine), Tracks p cs → Agrees p m.pos →
    List.Forall₂ (fun (e : Event) (c : Motion) => Agrees c.start e.st.pos) (effects m (cs.map .motion)).2 cs := by
  induction cs with
  | nil => intro p m _ _; exact .nil
  | cons c cs ih =>
    intro p m hc ha
    simp only [List.map_cons, effects, Command.effect, Motion.effect, List.cons_append, List.nil_append]
    have hpos : (withFeed m c).pos = m.pos := by unfold withFeed; split <;> rfl
    refine .cons ?_ (ih c.fin _ hc.2 (agrees_reach _ _))
    show Agrees c.start (withFeed m c).pos
    rw [hpos]
    exact ha.mono hc.1

theorem not_needsToolChange {j : Job} {t : Option Tool} (h : ¬ needsToolChange j (j.settings.inherit t)) :
    SameNum (j.settings.inherit t).toolNumber j.toolNumber := by
  unfold needsToolChange at h
  by_cases hn : (j.settings.inherit t).toolNumber = none
  · cases t with
    | none => rfl
    | some t =>
      simp only [Settings.inherit, Job.settings, Option.or_eq_none_iff] at hn ⊢
      simp [SameNum, hn.1, hn.2]
  · by_contra hc; exact h ⟨hn, hc⟩

theorem not_needsSpeedChange {j : Job} {t : Option Tool} (h : ¬ needsSpeedChange j (j.settings.inherit t)) :
    SameNum (j.settings.inherit t).speed j.speed := by
  unfold needsSpeedChange at h
  by_cases hn : (j.settings.inherit t).speed = none
  · cases t with
    | none => rfl
    | some t =>
      simp only [Settings.inherit, Job.settings, Option.or_eq_none_iff] at hn ⊢
      simp [SameNum, hn.1, hn.2]
  · by_contra hc; exact h ⟨hn, hc⟩

/-- What the machine must satisfy before an operation of a chain. -/
structure Ready (hdr : Option PyNum) (j : Job) (cs ct : Prop) (m : Machine) : Prop where
  tool : ∀ n, j.toolNumber = some n → m.tool = some n.value
  speed : cs ∨ SameNum hdr j.speed → ∀ v, j.speed = some v → m.speed = some v.value
  len : ct → ∀ n, j.toolNumber = some n → m.lenOff = some n.value
  noLen : ¬ ct → m.lenOff = none

theorem sameNum_some {a b : Option PyNum} (h : SameNum a b) {v : PyNum} (ha : a = some v) :
    ∃ w, b = some w ∧ w.value = v.value := by
  subst ha
  cases b with
  | none => simp [SameNum] at h
  | some w => exact ⟨w, rfl, by simpa [SameNum] using h.symm⟩

theorem ready_change {hdr : Option PyNum} {j : Job} {cs ct : Prop} {m : Machine} (h : Ready hdr j cs ct m)
    (t : Option Tool) (bs : List Command) (hb : changeCommands j t bs) (j' : Job)
    (hj : j'.settings = j.settings.inherit t) :
    Ready hdr j' (cs ∨ ToolOrSpeedChanged j.settings j'.settings) (ct ∨ ToolChanged j.settings j'.settings)
      (effects m bs).1 ∧ (effects m bs).2.filter isMove = [] := by
  have e1 : j'.toolNumber = (j.settings.inherit t).toolNumber := congrArg Settings.toolNumber hj
  have e2 : j'.speed = (j.settings.inherit t).speed := congrArg Settings.speed hj
  rw [hj]
  rcases hb with ⟨h1, rfl⟩ | ⟨h1, h2, rfl⟩ | ⟨h1, h2, rfl⟩
  · have hne : (j.settings.inherit t).toolNumber ≠ none := h1.1
    obtain ⟨n, hn⟩ := Option.ne_none_iff_exists'.1 hne
    have hc : ToolChanged j.settings (j.settings.inherit t) := h1.2
    have hm : ∀ (m : Machine) (s c), (startEffect m s c).tool = m.tool ∧ (startEffect m s c).lenOff = m.lenOff ∧
        (∀ v, s = some v → (startEffect m s c).speed = some v.value) := by
      intro m s c
      unfold startEffect
      rcases c with _ | c
      · exact ⟨rfl, rfl, by rintro v rfl; rfl⟩
      · cases c <;> exact ⟨rfl, rfl, by rintro v rfl; rfl⟩
    simp only [effects, Command.effect, toolChangeEffect]
    refine ⟨⟨?_, ?_, ?_, ?_⟩, rfl⟩
    · intro k hk
      rw [e1, hn] at hk; cases hk
      rw [(hm _ _ _).1, hn]; rfl
    · intro _ v hv
      rw [e2] at hv
      exact (hm _ _ _).2.2 v hv
    · intro _ k hk
      rw [e1, hn] at hk; cases hk
      rw [(hm _ _ _).2.1, hn]; rfl
    · intro hx; exact absurd (Or.inr hc) hx
  · have hs := not_needsToolChange h1
    simp only [effects, Command.effect]
    have hm : ∀ (m : Machine) (s c), (startEffect m s c).tool = m.tool ∧ (startEffect m s c).lenOff = m.lenOff ∧
        (∀ v, s = some v → (startEffect m s c).speed = some v.value) := by
      intro m s c
      unfold startEffect
      rcases c with _ | c
      · exact ⟨rfl, rfl, by rintro v rfl; rfl⟩
      · cases c <;> exact ⟨rfl, rfl, by rintro v rfl; rfl⟩
    refine ⟨⟨?_, ?_, ?_, ?_⟩, rfl⟩
    · intro k hk
      rw [e1] at hk
      obtain ⟨w, hw, hv⟩ := sameNum_some hs hk
      rw [(hm _ _ _).1, h.tool w hw, hv]
    · intro _ v hv
      rw [e2] at hv
      exact (hm _ _ _).2.2 v hv
    · intro hc k hk
      have hct : ct := hc.resolve_right (fun hx => hx hs)
      rw [e1] at hk
      obtain ⟨w, hw, hv⟩ := sameNum_some hs hk
      rw [(hm _ _ _).2.1, h.len hct w hw, hv]
    · intro hc
      rw [(hm _ _ _).2.1]
      exact h.noLen (fun hx => hc (Or.inl hx))
  · have hs := not_needsToolChange h1
    have hs2 := not_needsSpeedChange h2
    simp only [effects]
    refine ⟨⟨?_, ?_, ?_, ?_⟩, rfl⟩
    · intro k hk
      rw [e1] at hk
      obtain ⟨w, hw, hv⟩ := sameNum_some hs hk
      rw [h.tool w hw, hv]
    · intro hc v hv
      rw [e2] at hv
      obtain ⟨w, hw, hvw⟩ := sameNum_some hs2 hv
      rw [← hvw]
      refine h.speed ?_ w hw
      rcases hc with (hc | hc) | hc
      · exact Or.inl hc
      · rcases hc with hc | hc
        · exact absurd hs hc
        · exact absurd hs2 hc
      · rw [e2] at hc; exact Or.inr (hc.trans hs2)
    · intro hc k hk
      have hct : ct := hc.resolve_right (fun hx => hx hs)
      rw [e1] at hk
      obtain ⟨w, hw, hv⟩ := sameNum_some hs hk
      rw [h.len hct w hw, hv]
    · intro hc
      exact h.noLen (fun hx => hc (Or.inl hx))

theorem chain_cons_ok {j jf : Job} {r : Request} {rs : List Request} (h : j.chain (r :: rs) = .ok jf) :
    ∃ j', (j.call r).2 = .ok j' ∧ j'.chain rs = .ok jf := by
  unfold Job.chain at h
  split at h
  · cases h
  · rename_i j' hj; exact ⟨j', hj, h⟩

/-- The part of the program that belongs to a chain of calls. -/
theorem chain_segments (hdr : Option PyNum) (rs : List Request) (j jf : Job) (cs ct : Prop) (m : Machine)
    (h : j.chain rs = .ok jf) (hR : Ready hdr j cs ct m) :
    ∃ cmds evss, jf.allCommands = j.allCommands ++ cmds ∧ (effects m cmds).2 = evss.flatten ∧
      List.Forall₂ (fun evs mv => List.Forall₂ Performs (evs.filter isMove) mv) evss (chainMoves j rs) ∧
      List.Forall₂ (fun evs (s : Settings) => ∀ e ∈ evs, isMove e = true → ∀ n, s.toolNumber = some n →
        e.st.tool = some n.value) evss (requestSettings j.settings rs) ∧
      List.Forall₂ (fun evs (s : Settings × Prop) => s.2 ∨ SameNum hdr s.1.speed → ∀ e ∈ evs, isMove e = true →
        ∀ v, s.1.speed = some v → e.st.speed = some v.value) evss
        (changeHistory ToolOrSpeedChanged j.settings cs rs) ∧
      List.Forall₂ (fun evs (s : Settings × Prop) => ∀ e ∈ evs, isMove e = true →
        (s.2 → ∀ n, s.1.toolNumber = some n → e.st.lenOff = some n.value) ∧ (¬ s.2 → e.st.lenOff = none)) evss
        (changeHistory ToolChanged j.settings ct rs) ∧
      List.Forall₂ (fun evs mv => Tracks {} mv → List.Forall₂ (fun (e : Event) (c : Motion) => Agrees c.start e.st.pos)
        (evs.filter isMove) mv) evss (chainMoves j rs) := by
  induction rs generalizing j cs ct m with
  | nil =>
    cases h
    exact ⟨[], [], by simp, rfl, .nil, .nil, .nil, .nil, .nil⟩
  | cons r rs ih =>
    obtain ⟨j', hj', hch⟩ := chain_cons_ok h
    obtain ⟨bs, mv, hb, hgen, hcmds, hset, -⟩ := call_commands hj'
    obtain ⟨hR1, hno⟩ := ready_change hR r.tool bs hb j' hset
    obtain ⟨g1, g2, g3, g4, g5⟩ := effects_motions (effects m bs).1 mv
    have hR2 : Ready hdr j' (cs ∨ ToolOrSpeedChanged j.settings j'.settings)
        (ct ∨ ToolChanged j.settings j'.settings) (effects (effects m bs).1 (mv.map .motion)).1 :=
      ⟨fun n hn => by rw [g3]; exact hR1.tool n hn, fun hc v hv => by rw [g4]; exact hR1.speed hc v hv,
        fun hc n hn => by rw [g5]; exact hR1.len hc n hn, fun hc => by rw [g5]; exact hR1.noLen hc⟩
    obtain ⟨cmds, evss, a1, a2, a3, a4, a5, a6, a7⟩ := ih j' _ _ _ hch hR2
    have hcm : chainMoves j (r :: rs) = mv :: chainMoves j' rs := by simp only [chainMoves, hgen, hj']
    have e1 : effects m (bs ++ mv.map .motion) = ((effects (effects m bs).1 (mv.map .motion)).1,
        (effects m bs).2 ++ (effects (effects m bs).1 (mv.map .motion)).2) := effects_append m bs _
    have hmem : ∀ e ∈ (effects m (bs ++ mv.map .motion)).2, isMove e = true →
        e ∈ (effects (effects m bs).1 (mv.map .motion)).2 := by
      intro e he hm
      rw [e1, List.mem_append] at he
      rcases he with he | he
      · have : e ∈ (effects m bs).2.filter isMove := List.mem_filter.2 ⟨he, hm⟩
        rw [hno] at this; simp at this
      · exact he
    have hmv : (effects m (bs ++ mv.map .motion)).2.filter isMove
        = (effects (effects m bs).1 (mv.map .motion)).2 := by
      rw [e1, List.filter_append, hno, List.nil_append, List.filter_eq_self]
      exact fun e he => (g2 e he).2.2.2
    refine ⟨bs ++ mv.map .motion ++ cmds, (effects m (bs ++ mv.map .motion)).2 :: evss, ?_, ?_, ?_, ?_, ?_, ?_, ?_⟩
    · rw [a1, hcmds]; simp
    · rw [effects_append, e1, List.flatten_cons, ← a2]
    · rw [hcm]
      refine .cons ?_ a3
      rw [hmv]; exact g1
    · rw [hset] at a4
      refine .cons ?_ a4
      intro e he hm n hn
      rw [(g2 e (hmem e he hm)).1]
      exact hR1.tool n (by rw [← hset] at hn; exact hn)
    · rw [hset] at a5
      refine .cons ?_ a5
      intro hc e he hm v hv
      rw [(g2 e (hmem e he hm)).2.1]
      rw [← hset] at hc hv
      exact hR1.speed hc v hv
    · rw [hset] at a6
      refine .cons ?_ a6
      intro e he hm
      rw [(g2 e (hmem e he hm)).2.2.1]
      rw [← hset]
      exact ⟨fun hc n hn => hR1.len hc n hn, hR1.noLen⟩
    · rw [hcm]
      refine .cons ?_ a7
      intro hc
      rw [hmv]
      exact motions_stand mv {} _ hc (agrees_empty _)

theorem chainOK_of {rs : List Request} (h : ∀ r ∈ rs, ∀ j, RequestOK j r) (j : Job) : ChainOK j rs := by
  induction rs generalizing j with
  | nil => trivial
  | cons r rs ih => exact ⟨h r (by simp) j, fun j' _ => ih (fun r hr => h r (by simp [hr])) j'⟩

theorem reach_chain {j0 j jf : Job} {rs : List Request} (h0 : Reach j0 j) (hrs : ChainOK j rs)
    (h : j.chain rs = .ok jf) : Reach j0 jf := by
  induction rs generalizing j with
  | nil => cases h; exact h0
  | cons r rs ih =>
    obtain ⟨j', hj', hch⟩ := chain_cons_ok h
    exact ih (.result r h0 hrs.1 hj') (hrs.2 j' hj') hch

theorem intended_eq (j : Job) (m : Machine) :
    let m2 := startEffect (safetyEffect m).1 j.speed j.coolant
    let r := effects m2 j.allCommands
    j.intended m = ({ stopEffect (safetyEffect r.1).1 j.coolant with ended := true },
      (⟨safeModal m, .home⟩ : Event) :: (r.2 ++ [⟨safeModal r.1, .home⟩,
        ⟨stopEffect (safetyEffect r.1).1 j.coolant, .stop⟩])) := by
  intro m2 r
  simp only [Job.intended, Job.program]
  rw [effects_append, effects_append]
  simp only [effects, Command.effect]
  simp [safetyEffect, r, m2]

/-- The program of a chain of calls on a fresh job, cut into the parts of the calls. -/
theorem chain_program {j0 jf : Job} {rs : List Request} (m : Machine) (h0 : InitOK j0)
    (hn : ∀ v, j0.toolNumber = some v → NumOK v) (hrs : ChainOK j0 rs) (h : j0.chain rs = .ok jf)
    (hend : m.ended = false) (htool : ∀ n, j0.toolNumber = some n → m.tool = some n.value) :
    ∃ t m' e1 e2 e3 evss, jf.toGcode = .ok t ∧ runText m t = some (m', e1 :: (evss.flatten ++ [e2, e3])) ∧
      e1.act = .home ∧ e2.act = .home ∧ e3.act = .stop ∧
      List.Forall₂ (fun evs mv => List.Forall₂ Performs (evs.filter isMove) mv) evss (chainMoves j0 rs) ∧
      List.Forall₂ (fun evs (s : Settings) => ∀ e ∈ evs, isMove e = true → ∀ n, s.toolNumber = some n →
        e.st.tool = some n.value) evss (requestSettings j0.settings rs) ∧
      List.Forall₂ (fun evs (s : Settings × Prop) => s.2 ∨ SameNum jf.speed s.1.speed → ∀ e ∈ evs, isMove e = true →
        ∀ v, s.1.speed = some v → e.st.speed = some v.value) evss
        (changeHistory ToolOrSpeedChanged j0.settings False rs) ∧
      List.Forall₂ (fun evs (s : Settings × Prop) => ∀ e ∈ evs, isMove e = true →
        (s.2 → ∀ n, s.1.toolNumber = some n → e.st.lenOff = some n.value) ∧ (¬ s.2 → e.st.lenOff = none)) evss
        (changeHistory ToolChanged j0.settings False rs) ∧
      List.Forall₂ (fun evs mv => Tracks {} mv → List.Forall₂ (fun (e : Event) (c : Motion) => Agrees c.start e.st.pos)
        (evs.filter isMove) mv) evss (chainMoves j0 rs) := by
  have hI := inv_reach (inv_init h0 hn) (reach_chain .init hrs h)
  obtain ⟨t, ht, hr⟩ := run_job m jf hI.ok hend
  have hR : Ready jf.speed j0 False False (startEffect (safetyEffect m).1 jf.speed jf.coolant) := by
    have hm : ∀ (m : Machine) (s c), (startEffect m s c).tool = m.tool ∧ (startEffect m s c).lenOff = m.lenOff ∧
        (∀ v, s = some v → (startEffect m s c).speed = some v.value) := by
      intro m s c
      unfold startEffect
      rcases c with _ | c
      · exact ⟨rfl, rfl, by rintro v rfl; rfl⟩
      · cases c <;> exact ⟨rfl, rfl, by rintro v rfl; rfl⟩
    refine ⟨fun n hn => ?_, fun hc v hv => ?_, fun hc => hc.elim, fun _ => ?_⟩
    · rw [(hm _ _ _).1]; exact htool n hn
    · have hc := hc.resolve_left id
      obtain ⟨w, hw, hvw⟩ := sameNum_some hc.symm hv
      rw [(hm _ _ _).2.2 w hw, hvw]
    · rw [(hm _ _ _).2.1]; rfl
  obtain ⟨cmds, evss, a1, a2, a3, a4, a5, a6, a7⟩ := chain_segments jf.speed rs j0 jf _ _ _ h hR
  have hnil : j0.allCommands = [] := by simp [Job.allCommands, h0.fresh]
  rw [hnil, List.nil_append] at a1
  rw [intended_eq, a1, a2] at hr
  exact ⟨t, _, _, _, _, evss, ht, hr, rfl, rfl, rfl, a3, a4, a5, a6, a7⟩

end CQ
