import Verif.Props.Split

/-! # C129: the order of the calls -/

namespace CQ

theorem Job.SameSetup.refl (j : Job) : j.SameSetup j := ⟨_, _, _, _, _, rfl⟩

theorem Job.SameSetup.trans {a b c : Job} (h : a.SameSetup b) (h' : b.SameSetup c) : a.SameSetup c := by
  obtain ⟨_, _, _, _, _, rfl⟩ := h
  obtain ⟨_, _, _, _, _, rfl⟩ := h'
  exact ⟨_, _, _, _, _, rfl⟩

theorem Job.Past.setup {j j' : Job} (h : j.Past j') : j.SameSetup j' := by
  obtain ⟨_, rfl⟩ := h
  exact ⟨_, _, _, _, _, rfl⟩

theorem updateTool_setup (j : Job) (t : Option Tool) : j.SameSetup (j.updateTool t).2 := by
  cases t with
  | none => exact .refl j
  | some t =>
    simp only [Job.updateTool]
    split_ifs <;> exact ⟨_, _, _, _, _, rfl⟩

/-- A tool with all its data leaves nothing of the tool before it. -/
theorem updateTool_complete {j j' : Job} {t : Tool} (h : t.Complete) (hj : j.SameSetup j') :
    (j.updateTool (some t)).2.Past (j'.updateTool (some t)).2 := by
  obtain ⟨_, _, _, _, _, rfl⟩ := hj
  obtain ⟨td, tn, fe, sp⟩ := t
  obtain ⟨h1, h2, h3, h4⟩ := h
  cases td <;> cases tn <;> cases fe <;> cases sp <;> simp_all only [Option.isSome_none, Bool.false_eq_true, Option.isSome_some]
  simp only [Job.updateTool]
  split_ifs <;> exact ⟨_, rfl⟩

/-- What is known of the job when a call is made in a chain that started with `j0`. -/
def Between (tools : Bool) (j0 j : Job) : Prop :=
  match tools with
  | false => j0.Past j
  | true => j0.SameSetup j ∧ j.toolDiameter ≠ none ∧ j0.toolDiameter ≠ none

/-- The calls allowed: without a tool, or with complete ones. -/
def Allowed (tools : Bool) (r : Request) : Prop :=
  match tools with
  | false => r.tool = none
  | true => Steady r ∧ ∃ t : Tool, r.tool = some t ∧ t.Complete

theorem Between.pre {tools : Bool} {j0 j : Job} {r : Request} (h : Between tools j0 j) (ha : Allowed tools r) (hf : Forgetful r) :
    r.pre j = r.pre j0 := by
  cases tools with
  | false => exact hf.pre_past h
  | true => exact ha.1 _ _ h.1 h.2.2 h.2.1

theorem Between.gen {tools : Bool} {j0 j : Job} {r : Request} (h : Between tools j0 j) (ha : Allowed tools r) (hf : Forgetful r) :
    r.gen (j.updateTool r.tool).2 = r.gen (j0.updateTool r.tool).2 := by
  cases tools with
  | false => exact hf.gen_past (Job.Past.updateTool h r.tool)
  | true =>
    obtain ⟨-, t, ht, hc⟩ := ha
    rw [ht]
    exact hf.gen_past (updateTool_complete hc h.1)

theorem Between.next {tools : Bool} {j0 j j' : Job} {r : Request} (h : Between tools j0 j) (ha : Allowed tools r)
    (hp : (j.updateTool r.tool).2.Past j') : Between tools j0 j' := by
  cases tools with
  | false =>
    have ha : r.tool = none := ha
    rw [ha] at hp
    exact Job.Past.trans h hp
  | true =>
    refine ⟨h.1.trans ((updateTool_setup j r.tool).trans hp.setup), ?_, h.2.2⟩
    obtain ⟨old, rfl⟩ := hp
    exact updateTool_diameter r.tool h.2.1

/-- The motions a call makes on a fresh job. -/
def aloneMoves (j0 : Job) (r : Request) : List Motion :=
  match r.gen (j0.updateTool r.tool).2 with
  | .ok cs => cs
  | .error _ => []

theorem chain_alone {tools : Bool} {j0 : Job} {rs : List Request} (hf : ∀ r ∈ rs, Forgetful r) (ha : ∀ r ∈ rs, Allowed tools r) :
    ∀ {j jf : Job}, Between tools j0 j → j.chain rs = .ok jf →
      (∀ r ∈ rs, r.pre j0 = .ok () ∧ r.gen (j0.updateTool r.tool).2 = .ok (aloneMoves j0 r)) ∧ chainMoves j rs = rs.map (aloneMoves j0) := by
  induction rs with
  | nil => intro j jf _ _; exact ⟨by simp, rfl⟩
  | cons r rs ih =>
    intro j jf hb h
    obtain ⟨j1, h1, h2⟩ := chain_cons_ok h
    obtain ⟨cs, a1, a2, a3, -⟩ := call_motions h1
    have hfr := hf r (by simp)
    have har := ha r (by simp)
    have hcs : aloneMoves j0 r = cs := by
      simp only [aloneMoves, ← hb.gen har hfr, a2]
    obtain ⟨b1, b2⟩ := ih (fun r hr => hf r (by simp [hr])) (fun r hr => ha r (by simp [hr])) (hb.next har a3) h2
    constructor
    · intro r' hr'
      rcases List.mem_cons.mp hr' with rfl | hr'
      · exact ⟨by rw [← hb.pre har hfr, a1], by rw [← hb.gen har hfr, a2, hcs]⟩
      · exact b1 r' hr'
    · simp only [chainMoves, a2, h1, b2, List.map_cons, hcs]

theorem chain_together {tools : Bool} {j0 : Job} {rs : List Request} (hf : ∀ r ∈ rs, Forgetful r) (ha : ∀ r ∈ rs, Allowed tools r)
    (hok : ∀ r ∈ rs, r.pre j0 = .ok () ∧ r.gen (j0.updateTool r.tool).2 = .ok (aloneMoves j0 r)) :
    ∀ {j : Job}, Between tools j0 j → ∃ jf, j.chain rs = .ok jf := by
  induction rs with
  | nil => intro j _; exact ⟨j, rfl⟩
  | cons r rs ih =>
    intro j hb
    have hfr := hf r (by simp)
    have har := ha r (by simp)
    obtain ⟨p, g⟩ := hok r (by simp)
    obtain ⟨j1, h1, h2, -⟩ := call_makes (j := j) (by rw [hb.pre har hfr, p]) (by rw [hb.gen har hfr, g])
    obtain ⟨jf, h3⟩ := ih (fun r hr => hf r (by simp [hr])) (fun r hr => ha r (by simp [hr])) (fun r hr => hok r (by simp [hr])) (hb.next har h2)
    exact ⟨jf, by simp only [Job.chain, h1, h3]⟩

theorem order_program {tools : Bool} {j jf : Job} {rs rs' : List Request} (hj : Between tools j j) (hf : ∀ r ∈ rs, Forgetful r)
    (ha : ∀ r ∈ rs, Allowed tools r) (hsub : rs' ⊆ rs) (h : j.chain rs = .ok jf) :
    ∃ (jf' : Job) (moves : Request → List Motion), j.chain rs' = .ok jf' ∧ chainMoves j rs = rs.map moves ∧ chainMoves j rs' = rs'.map moves := by
  obtain ⟨a1, a2⟩ := chain_alone hf ha hj h
  have hf' : ∀ r ∈ rs', Forgetful r := fun r hr => hf r (hsub hr)
  have ha' : ∀ r ∈ rs', Allowed tools r := fun r hr => ha r (hsub hr)
  obtain ⟨jf', h'⟩ := chain_together hf' ha' (fun r hr => a1 r (hsub hr)) hj
  exact ⟨jf', aloneMoves j, h', a2, (chain_alone hf' ha' hj h').2⟩

/-- C129, for calls without a tool: whatever calls of an accepted chain are made, in whatever order and however often, the chain is
accepted, and each call makes the same motions as before. -/
theorem C129_program {j jf : Job} {rs rs' : List Request} (hf : ∀ r ∈ rs, Forgetful r) (ht : ∀ r ∈ rs, r.tool = none) (hsub : rs' ⊆ rs)
    (h : j.chain rs = .ok jf) :
    ∃ (jf' : Job) (moves : Request → List Motion), j.chain rs' = .ok jf' ∧ chainMoves j rs = rs.map moves ∧ chainMoves j rs' = rs'.map moves :=
  order_program (tools := false) (Job.Past.refl j) hf ht hsub h

/-- C129, for calls that bring tools with all their data, on a job with a tool diameter. -/
theorem C129_tools_partial {j jf : Job} {rs rs' : List Request} (hd : j.toolDiameter ≠ none) (hf : ∀ r ∈ rs, Forgetful r)
    (hs : ∀ r ∈ rs, Steady r) (ht : ∀ r ∈ rs, ∃ t : Tool, r.tool = some t ∧ t.Complete) (hsub : rs' ⊆ rs) (h : j.chain rs = .ok jf) :
    ∃ (jf' : Job) (moves : Request → List Motion), j.chain rs' = .ok jf' ∧ chainMoves j rs = rs.map moves ∧ chainMoves j rs' = rs'.map moves :=
  order_program (tools := true) ⟨.refl j, hd, hd⟩ hf (fun r hr => ⟨hs r hr, ht r hr⟩) hsub h

/-- Reordering: the motions of the whole program are the same ones in another order. -/
theorem C129_reorder {j jf : Job} {rs rs' : List Request} (hf : ∀ r ∈ rs, Forgetful r) (ht : ∀ r ∈ rs, r.tool = none) (hp : rs'.Perm rs)
    (h : j.chain rs = .ok jf) : ∃ jf', j.chain rs' = .ok jf' ∧ jf'.motions.Perm jf.motions := by
  obtain ⟨jf', moves, h1, h2, h3⟩ := C129_program hf ht hp.subset h
  refine ⟨jf', h1, ?_⟩
  rw [chainMoves_motions h, chainMoves_motions h1, h2, h3]
  exact ((hp.map moves).flatten).append_left _

/-- Reordering calls that bring complete tools. -/
theorem C129_reorder_tools_partial {j jf : Job} {rs rs' : List Request} (hd : j.toolDiameter ≠ none) (hf : ∀ r ∈ rs, Forgetful r)
    (hs : ∀ r ∈ rs, Steady r) (ht : ∀ r ∈ rs, ∃ t : Tool, r.tool = some t ∧ t.Complete) (hp : rs'.Perm rs) (h : j.chain rs = .ok jf) :
    ∃ jf', j.chain rs' = .ok jf' ∧ jf'.motions.Perm jf.motions := by
  obtain ⟨jf', moves, h1, h2, h3⟩ := C129_tools_partial hd hf hs ht hp.subset h
  refine ⟨jf', h1, ?_⟩
  rw [chainMoves_motions h, chainMoves_motions h1, h2, h3]
  exact ((hp.map moves).flatten).append_left _

theorem performs_map {evss : List (List Event)} {rs : List Request} {moves : Request → List Motion}
    (h : List.Forall₂ (fun evs mv => List.Forall₂ Performs (evs.filter isMove) mv) evss (rs.map moves)) :
    List.Forall₂ (fun evs r => List.Forall₂ Performs (evs.filter isMove) (moves r)) evss rs :=
  List.forall₂_map_right_iff.mp h

theorem order_machine {j0 jf jf' : Job} {rs rs' : List Request} {moves : Request → List Motion} (m m' : Machine)
    (hm : chainMoves j0 rs = rs.map moves) (hm' : chainMoves j0 rs' = rs'.map moves) (h0 : InitOK j0)
    (hn : ∀ v, j0.toolNumber = some v → NumOK v) (hok : ChainOK j0 rs) (hok' : ChainOK j0 rs') (h : j0.chain rs = .ok jf)
    (h' : j0.chain rs' = .ok jf') (hend : m.ended = false) (hend' : m'.ended = false)
    (htool : ∀ n, j0.toolNumber = some n → m.tool = some n.value) (htool' : ∀ n, j0.toolNumber = some n → m'.tool = some n.value) :
    ∃ t t' m1 m1' a b c a' b' c' evss evss', jf.toGcode = .ok t ∧ jf'.toGcode = .ok t' ∧
      runText m t = some (m1, a :: (evss.flatten ++ [b, c])) ∧ runText m' t' = some (m1', a' :: (evss'.flatten ++ [b', c'])) ∧
      (isMove a = false ∧ isMove b = false ∧ isMove c = false) ∧ (isMove a' = false ∧ isMove b' = false ∧ isMove c' = false) ∧
      List.Forall₂ (fun evs r => List.Forall₂ Performs (evs.filter isMove) (moves r)) evss rs ∧
      List.Forall₂ (fun evs r => List.Forall₂ Performs (evs.filter isMove) (moves r)) evss' rs' := by
  obtain ⟨t, m1, a, b, c, evss, p1, p2, p3, p4, p5, p6, p7, -⟩ := chain_program m h0 hn hok h hend htool
  obtain ⟨t', m1', a', b', c', evss', q1, q2, q3, q4, q5, q6, q7, -⟩ := chain_program m' h0 hn hok' h' hend' htool'
  rw [hm] at p6
  rw [hm'] at q6
  refine ⟨t, t', m1, m1', a, b, c, a', b', c', evss, evss', p1, q1, p2, q2, ?_, ?_, performs_map p6, performs_map q6⟩
  · simp [isMove, p3, p4, p5]
  · simp [isMove, q3, q4, q5]

/-- C129 on the machine: in the program with the calls in another order, each call makes the machine perform the same motions. -/
theorem C129_machine {j0 jf : Job} {rs rs' : List Request} (m m' : Machine) (hf : ∀ r ∈ rs, Forgetful r) (ht : ∀ r ∈ rs, r.tool = none)
    (hsub : rs' ⊆ rs) (h0 : InitOK j0) (hn : ∀ v, j0.toolNumber = some v → NumOK v) (hok : ChainOK j0 rs) (hok' : ChainOK j0 rs')
    (h : j0.chain rs = .ok jf) (hend : m.ended = false) (hend' : m'.ended = false)
    (htool : ∀ n, j0.toolNumber = some n → m.tool = some n.value) (htool' : ∀ n, j0.toolNumber = some n → m'.tool = some n.value) :
    ∃ (jf' : Job) (moves : Request → List Motion), ∃ t t' m1 m1' a b c a' b' c' evss evss', j0.chain rs' = .ok jf' ∧ jf.toGcode = .ok t ∧ jf'.toGcode = .ok t' ∧
      runText m t = some (m1, a :: (evss.flatten ++ [b, c])) ∧ runText m' t' = some (m1', a' :: (evss'.flatten ++ [b', c'])) ∧
      (isMove a = false ∧ isMove b = false ∧ isMove c = false) ∧ (isMove a' = false ∧ isMove b' = false ∧ isMove c' = false) ∧
      List.Forall₂ (fun evs r => List.Forall₂ Performs (evs.filter isMove) (moves r)) evss rs ∧
      List.Forall₂ (fun evs r => List.Forall₂ Performs (evs.filter isMove) (moves r)) evss' rs' := by
  obtain ⟨jf', moves, h1, h2, h3⟩ := C129_program hf ht hsub h
  exact ⟨jf', moves, by
    obtain ⟨t, t', m1, m1', a, b, c, a', b', c', evss, evss', p⟩ := order_machine m m' h2 h3 h0 hn hok hok' h h1 hend hend' htool htool'
    exact ⟨t, t', m1, m1', a, b, c, a', b', c', evss, evss', h1, p⟩⟩

/-- C129 on the machine, for calls that bring complete tools. -/
theorem C129_machine_tools_partial {j0 jf : Job} {rs rs' : List Request} (m m' : Machine) (hd : j0.toolDiameter ≠ none)
    (hf : ∀ r ∈ rs, Forgetful r) (hs : ∀ r ∈ rs, Steady r) (ht : ∀ r ∈ rs, ∃ t : Tool, r.tool = some t ∧ t.Complete)
    (hsub : rs' ⊆ rs) (h0 : InitOK j0) (hn : ∀ v, j0.toolNumber = some v → NumOK v) (hok : ChainOK j0 rs) (hok' : ChainOK j0 rs')
    (h : j0.chain rs = .ok jf) (hend : m.ended = false) (hend' : m'.ended = false)
    (htool : ∀ n, j0.toolNumber = some n → m.tool = some n.value) (htool' : ∀ n, j0.toolNumber = some n → m'.tool = some n.value) :
    ∃ (jf' : Job) (moves : Request → List Motion), ∃ t t' m1 m1' a b c a' b' c' evss evss', j0.chain rs' = .ok jf' ∧ jf.toGcode = .ok t ∧ jf'.toGcode = .ok t' ∧
      runText m t = some (m1, a :: (evss.flatten ++ [b, c])) ∧ runText m' t' = some (m1', a' :: (evss'.flatten ++ [b', c'])) ∧
      (isMove a = false ∧ isMove b = false ∧ isMove c = false) ∧ (isMove a' = false ∧ isMove b' = false ∧ isMove c' = false) ∧
      List.Forall₂ (fun evs r => List.Forall₂ Performs (evs.filter isMove) (moves r)) evss rs ∧
      List.Forall₂ (fun evs r => List.Forall₂ Performs (evs.filter isMove) (moves r)) evss' rs' := by
  obtain ⟨jf', moves, h1, h2, h3⟩ := C129_tools_partial hd hf hs ht hsub h
  exact ⟨jf', moves, by
    obtain ⟨t, t', m1, m1', a, b, c, a', b', c', evss, evss', p⟩ := order_machine m m' h2 h3 h0 hn hok hok' h h1 hend hend' htool htool'
    exact ⟨t, t', m1, m1', a, b, c, a', b', c', evss, evss', h1, p⟩⟩

/-! ### The calls of the program -/

theorem steady_profile (cad : Cad) (s : List Shape) (oo io : Option ℚ) (sd : Option ℚ) (tabs : Option Tabs) (t : Option Tool) :
    Steady (profileRequest cad s oo io sd tabs t) := by
  intro j j' _ h h'
  simp only [profileRequest, if_neg h, if_neg h']

theorem steady_of_free {r : Request} (h : ∀ j, r.pre j = .ok ()) : Steady r := by
  intro j j' _ _ _
  rw [h, h]

/-- Every pocket is a call C128 and C129 apply to. -/
theorem C129_pocket (eng : Clipper) (veq : Vec → Vec → Bool) (box : List Edge → List (List Edge) → ℚ × ℚ) (fuel : ℕ)
    (os as : List WorldFace) (a : PocketArgs) (t : Option Tool) :
    Forgetful (pocketPlacedRequest eng veq box fuel os as a t) ∧ Steady (pocketPlacedRequest eng veq box fuel os as a t) :=
  ⟨forgetful_pocket .., steady_of_free fun _ => rfl⟩

/-- Every pocket with either engine. -/
theorem C129_pocket_engine {F : Type} (eng : Clipper) (k : FaceKernelCq F) (view : F → CqFace) (fuel : ℕ) (os as : List F) (a : PocketArgs)
    (engine : Text) (t : Option Tool) :
    Forgetful { opName := "Pocket".toList, tool := t, gen := pocketWith eng k view fuel os as a engine } ∧
    Steady { opName := "Pocket".toList, tool := t, gen := pocketWith eng k view fuel os as a engine } :=
  ⟨forgetful_pocketWith .., steady_of_free fun _ => rfl⟩

/-- Every profile. -/
theorem C129_profile (cad : Cad) (s : List Shape) (oo io : Option ℚ) (sd : Option ℚ) (tabs : Option Tabs) (t : Option Tool) :
    Forgetful (profileRequest cad s oo io sd tabs t) ∧ Steady (profileRequest cad s oo io sd tabs t) :=
  ⟨forgetful_profile .., steady_profile _ _ _ _ _ _ _⟩

/-- Every wire profile. -/
theorem C129_wire_profile (cad : Cad) (ws : List (List Edge)) (o : ℚ) (sd : Option ℚ) (tabs : Option Tabs) (t : Option Tool) :
    Forgetful (wireProfileRequest cad ws o sd tabs t) ∧ Steady (wireProfileRequest cad ws o sd tabs t) :=
  ⟨forgetful_wireProfile .., steady_of_free fun _ => rfl⟩

/-- Every drilling. -/
theorem C129_drill (center : List Edge → Except Err Vec) (o : Option (List DrillObj)) (d : Option ℚ) (t : Option Tool) :
    Forgetful (drillRequest center o d t) ∧ Steady (drillRequest center o d t) :=
  ⟨forgetful_drill .., steady_of_free fun _ => rfl⟩

/-- Every surfacing. -/
theorem C129_surface (eng : SurfaceEngine) (k : FaceKernel) (args : SurfaceArgs) (oo : ℚ × ℚ) (io : Option (ℚ × ℚ)) (bs : List BoundaryFace) :
    Forgetful (surface3dRequest eng k args oo io bs) ∧ Steady (surface3dRequest eng k args oo io bs) :=
  ⟨forgetful_surface .., steady_of_free fun _ => rfl⟩

/-- Every surfacing, from the selection on. -/
theorem C129_surface_call {F : Type} (c : SurfaceCad F) (k : FaceKernel) (args : SurfaceArgs) (oo : OffsetInput) (io : Option OffsetInput)
    (sel : List (Selected F)) : Forgetful { opName := "Surface 3D".toList, tool := none, gen := surface3dCall c k args oo io sel } :=
  forgetful_surfaceCall ..

/-- Every surfacing with the triangulation of the shape. -/
theorem C129_surface_mesh (m : SurfaceLibs) (k : FaceKernel) (shape : CadShape) (bottom : ℚ) (args : SurfaceArgs) (oo : ℚ × ℚ)
    (io : Option (ℚ × ℚ)) (bs : List BoundaryFace) : Forgetful (surface3dMeshRequest m k shape bottom args oo io bs) :=
  forgetful_mesh ..

end CQ
