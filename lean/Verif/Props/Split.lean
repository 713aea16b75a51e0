import Verif.Proofs.Forgetful
import Verif.Props.Feeds
import Verif.Props.EndToEnd
import Mathlib.Data.List.Perm.Basic

/-! # C128: asking for several wires or boundaries at once is asking for them one by one -/

namespace CQ

/-! ### Calls on jobs that differ in the operations done so far -/

theorem Job.Past.refl (j : Job) : j.Past j := ⟨j.operations, rfl⟩

theorem Job.Past.symm {j j' : Job} (h : j.Past j') : j'.Past j := by
  obtain ⟨old, rfl⟩ := h
  exact ⟨j.operations, rfl⟩

theorem Job.Past.trans {a b c : Job} (h : a.Past b) (h' : b.Past c) : a.Past c := by
  obtain ⟨old, rfl⟩ := h
  obtain ⟨old', rfl⟩ := h'
  exact ⟨old', rfl⟩

theorem Job.Past.updateTool {j j' : Job} (h : j.Past j') (t : Option Tool) : (j.updateTool t).2.Past (j'.updateTool t).2 := by
  obtain ⟨old, rfl⟩ := h
  cases t with
  | none => exact ⟨old, rfl⟩
  | some t =>
    simp only [Job.updateTool]
    split_ifs <;> exact ⟨_, rfl⟩

theorem Job.Past.addOperation (j : Job) (n : Text) (cs : List Command) : j.Past (j.addOperation n cs) := ⟨_, rfl⟩

/-- Giving the tool again changes nothing. -/
theorem updateTool_again {j j' : Job} {t : Option Tool} (h : (j.updateTool t).2.Past j') : (j.updateTool t).2.Past (j'.updateTool t).2 := by
  cases t with
  | none => exact h
  | some t =>
    obtain ⟨old, rfl⟩ := h
    obtain ⟨td, tn, fe, sp⟩ := t
    cases td <;> cases tn <;> cases fe <;> cases sp <;> simp only [Job.updateTool] <;> split_ifs <;> exact ⟨_, rfl⟩

theorem Forgetful.pre_past {r : Request} (h : Forgetful r) {j j' : Job} (hp : j.Past j') : r.pre j' = r.pre j := by
  obtain ⟨old, rfl⟩ := hp
  exact h.pre j old

theorem Forgetful.gen_past {r : Request} (h : Forgetful r) {j j' : Job} (hp : j.Past j') : r.gen j' = r.gen j := by
  obtain ⟨old, rfl⟩ := hp
  exact h.gen j old

theorem call_motions {j j' : Job} {r : Request} (h : (j.call r).2 = .ok j') :
    ∃ cs, r.pre j = .ok () ∧ r.gen (j.updateTool r.tool).2 = .ok cs ∧ (j.updateTool r.tool).2.Past j' ∧ j'.motions = j.motions ++ cs := by
  unfold Job.call at h
  cases hp : r.pre j with
  | error e => rw [hp] at h; cases h
  | ok u =>
    rw [hp] at h
    simp only at h
    cases hg : r.gen (j.updateTool r.tool).2 with
    | error e => rw [hg] at h; cases h
    | ok cs =>
      rw [hg] at h
      cases h
      refine ⟨cs, rfl, rfl, .addOperation _ _ _, ?_⟩
      have := updateTool_motions j r.tool
      simp only [Job.motions, Job.addOperation, List.flatMap_append, List.flatMap_cons, List.flatMap_nil, List.append_nil,
        motionsOf_motion] at this ⊢
      rw [this]

theorem call_makes {j : Job} {r : Request} {cs : List Motion} (hp : r.pre j = .ok ()) (hg : r.gen (j.updateTool r.tool).2 = .ok cs) :
    ∃ j', (j.call r).2 = .ok j' ∧ (j.updateTool r.tool).2.Past j' ∧ j'.motions = j.motions ++ cs := by
  have h : (j.call r).2 = .ok ((j.updateTool r.tool).2.addOperation r.opName (cs.map .motion)) := by
    simp only [Job.call, hp, hg]
  obtain ⟨cs', -, h2, h3, h4⟩ := call_motions h
  rw [hg] at h2
  cases h2
  exact ⟨_, h, h3, h4⟩

/-- A chain of calls that do not look back does the same after another past. -/
theorem chain_past {rs : List Request} (hrs : ∀ r ∈ rs, Forgetful r) : ∀ {j j' jf : Job}, j.Past j' → j.chain rs = .ok jf →
    ∃ jf' tail, j'.chain rs = .ok jf' ∧ jf.Past jf' ∧ jf.motions = j.motions ++ tail ∧ jf'.motions = j'.motions ++ tail := by
  induction rs with
  | nil =>
    intro j j' jf hp h
    cases h
    exact ⟨j', [], rfl, hp, by simp, by simp⟩
  | cons r rs ih =>
    intro j j' jf hp h
    obtain ⟨j1, h1, h2⟩ := chain_cons_ok h
    obtain ⟨cs, a1, a2, a3, a4⟩ := call_motions h1
    have hr := hrs r (by simp)
    obtain ⟨j1', b1, b2, b3⟩ := call_makes (j := j') (r := r) (cs := cs) (by rw [hr.pre_past hp, a1])
      (by rw [hr.gen_past (hp.updateTool r.tool), a2])
    obtain ⟨jf', tail, c1, c2, c3, c4⟩ := ih (fun r hr => hrs r (by simp [hr])) ((a3.symm.trans (hp.updateTool r.tool)).trans b2) h2
    refine ⟨jf', cs ++ tail, ?_, c2, ?_, ?_⟩
    · simp only [Job.chain, b1, c1]
    · rw [c3, a4, List.append_assoc]
    · rw [c4, b3, List.append_assoc]

/-! ### Splitting a call -/

section
variable {R : List Motion → List Motion → Prop} {r r1 r2 : Request}

/-- The call made at once, then the two calls. -/
theorem splits_call (h : SplitsInto R r r1 r2) (h2 : Forgetful r2) {j jr : Job} (hc : (j.call r).2 = .ok jr) :
    ∃ ja jb cs cs', (j.call r1).2 = .ok ja ∧ (ja.call r2).2 = .ok jb ∧ jr.Past jb ∧ jr.motions = j.motions ++ cs ∧
      jb.motions = j.motions ++ cs' ∧ R cs cs' := by
  obtain ⟨cs, a1, a2, a3, a4⟩ := call_motions hc
  obtain ⟨p1, p2⟩ := (h.pre j).mp a1
  obtain ⟨cs1, cs2, g1, g2, hR⟩ := h.made _ cs a2
  obtain ⟨ja, b1, b2, b3⟩ := call_makes p1 (by rw [h.tool1]; exact g1)
  rw [h.tool1] at b2
  obtain ⟨jb, c1, c2, c3⟩ := call_makes (j := ja) (r := r2) (cs := cs2) (by rw [h2.pre_past b2, p2])
    (by rw [h.tool2, h2.gen_past (updateTool_again b2), g2])
  rw [h.tool2] at c2
  exact ⟨ja, jb, cs, cs1 ++ cs2, b1, c1, (a3.symm.trans (updateTool_again b2)).trans c2, a4, by rw [c3, b3, List.append_assoc], hR⟩

/-- The two calls, then the call made at once. -/
theorem joins_call (h : SplitsInto R r r1 r2) (h2 : Forgetful r2) {j ja jb : Job} (ha : (j.call r1).2 = .ok ja)
    (hb : (ja.call r2).2 = .ok jb) : ∃ jr, (j.call r).2 = .ok jr := by
  obtain ⟨cs1, a1, a2, a3, -⟩ := call_motions ha
  obtain ⟨cs2, b1, b2, -, -⟩ := call_motions hb
  rw [h.tool1] at a2 a3
  rw [h2.pre_past a3] at b1
  rw [h.tool2, h2.gen_past (updateTool_again a3)] at b2
  obtain ⟨cs, hg, -⟩ := h.join _ cs1 cs2 a2 b2
  obtain ⟨jr, hj, -, -⟩ := call_makes ((h.pre j).mpr ⟨a1, b1⟩) hg
  exact ⟨jr, hj⟩

/-- C128, for programs: putting two calls in the place of one makes a program that is accepted if and only if the other is, and that
makes the same motions up to `R`. -/
theorem split_program (hR : ∀ a b x y, R x y → R (a ++ x ++ b) (a ++ y ++ b)) (h : SplitsInto R r r1 r2) (h2 : Forgetful r2)
    {after : List Request} (hf : ∀ r ∈ after, Forgetful r) (j : Job) (before : List Request) :
    (∀ jf, j.chain (before ++ r :: after) = .ok jf → ∃ jf', j.chain (before ++ r1 :: r2 :: after) = .ok jf' ∧ jf.Past jf' ∧
      R jf.motions jf'.motions) ∧
    (∀ jf', j.chain (before ++ r1 :: r2 :: after) = .ok jf' → ∃ jf, j.chain (before ++ r :: after) = .ok jf) := by
  induction before generalizing j with
  | nil =>
    constructor
    · intro jf hc
      obtain ⟨jr, d1, d2⟩ := chain_cons_ok hc
      obtain ⟨ja, jb, cs, cs', e1, e2, e3, e4, e5, e6⟩ := splits_call h h2 d1
      obtain ⟨jf', tail, f1, f2, f3, f4⟩ := chain_past hf e3 d2
      refine ⟨jf', ?_, f2, ?_⟩
      · simp only [List.nil_append, Job.chain, e1, e2, f1]
      · rw [f3, f4, e4, e5]
        exact hR _ _ _ _ e6
    · intro jf' hc
      obtain ⟨ja, d1, d2⟩ := chain_cons_ok hc
      obtain ⟨jb, d3, d4⟩ := chain_cons_ok d2
      obtain ⟨jr, hj⟩ := joins_call h h2 d1 d3
      obtain ⟨ja', jb', -, -, e1, e2, e3, -, -, -⟩ := splits_call h h2 hj
      rw [d1] at e1
      cases e1
      rw [d3] at e2
      cases e2
      obtain ⟨jf, -, f1, -⟩ := chain_past hf e3.symm d4
      exact ⟨jf, by simp only [List.nil_append, Job.chain, hj, f1]⟩
  | cons b bs ih =>
    cases hb : (j.call b).2 with
    | error e => simp [Job.chain, hb]
    | ok j1 =>
      simp only [List.cons_append, Job.chain, hb]
      exact ih j1

end

theorem eq_frame (a b x y : List Motion) (h : x = y) : a ++ x ++ b = a ++ y ++ b := by rw [h]

theorem perm_frame (a b x y : List Motion) (h : x.Perm y) : (a ++ x ++ b).Perm (a ++ y ++ b) := (h.append_left a).append_right b

/-! ### The calls that can be split -/

theorem mapE_append_iff {α β : Type} {f : α → Except Err β} {l l' : List α} {b : List β} :
    mapE f (l ++ l') = .ok b ↔ ∃ b1 b2, mapE f l = .ok b1 ∧ mapE f l' = .ok b2 ∧ b = b1 ++ b2 := by
  constructor
  · intro h
    have := mapE_ok.mp h
    obtain ⟨b1, b2, h1, h2, rfl⟩ : ∃ b1 b2, List.Forall₂ (fun x y => f x = .ok y) l b1 ∧ List.Forall₂ (fun x y => f x = .ok y) l' b2 ∧ b = b1 ++ b2 := by
      refine ⟨b.take l.length, b.drop l.length, ?_, ?_, (List.take_append_drop _ _).symm⟩
      · have := List.forall₂_take l.length this
        rwa [List.take_left'  rfl] at this
      · have := List.forall₂_drop l.length this
        rwa [List.drop_left' rfl] at this
    exact ⟨b1, b2, mapE_ok.mpr h1, mapE_ok.mpr h2, rfl⟩
  · rintro ⟨b1, b2, h1, h2, rfl⟩
    exact mapE_ok.mpr (List.rel_append (mapE_ok.mp h1) (mapE_ok.mp h2))

theorem profiles_append {cad : Cad} {j : Job} {o : ℚ} {sd : Option ℚ} {tabs : Option Tabs} {ws ws' : List (List Edge)} {cs : List Motion} :
    profiles cad j o sd tabs (ws ++ ws') = .ok cs ↔
      ∃ cs1 cs2, profiles cad j o sd tabs ws = .ok cs1 ∧ profiles cad j o sd tabs ws' = .ok cs2 ∧ cs = cs1 ++ cs2 := by
  unfold profiles
  constructor
  · intro h
    obtain ⟨b, h, h'⟩ := bind_ok.mp h
    obtain ⟨b1, b2, h1, h2, rfl⟩ := mapE_append_iff.mp h
    cases h'
    exact ⟨b1.flatten, b2.flatten, by rw [h1]; rfl, by rw [h2]; rfl, by simp⟩
  · rintro ⟨cs1, cs2, h1, h2, rfl⟩
    obtain ⟨b1, g1, h1'⟩ := bind_ok.mp h1
    obtain ⟨b2, g2, h2'⟩ := bind_ok.mp h2
    cases h1'
    cases h2'
    rw [mapE_append_iff.mpr ⟨b1, b2, g1, g2, rfl⟩]
    simp [ok_bind]

theorem splits_wireProfile (cad : Cad) (ws ws' : List (List Edge)) (o : ℚ) (sd : Option ℚ) (tabs : Option Tabs) (t : Option Tool) :
    SplitsInto Eq (wireProfileRequest cad (ws ++ ws') o sd tabs t) (wireProfileRequest cad ws o sd tabs t) (wireProfileRequest cad ws' o sd tabs t) where
  tool1 := rfl
  tool2 := rfl
  pre := fun _ => ⟨fun _ => ⟨rfl, rfl⟩, fun _ => rfl⟩
  made := fun _ _ h => profiles_append.mp h
  join := fun _ cs1 cs2 h1 h2 => ⟨cs1 ++ cs2, profiles_append.mpr ⟨cs1, cs2, h1, h2, rfl⟩, rfl⟩

theorem extractWires_append (s s' : List Shape) : extractWires (s ++ s') =
    (extractWires s >>= fun a => extractWires s' >>= fun b => .ok (a.1 ++ b.1, a.2 ++ b.2)) := by
  induction s with
  | nil =>
    simp only [List.nil_append, extractWires, ok_bind]
    cases extractWires s' <;> rfl
  | cons x s ih =>
    cases x with
    | wire w =>
      simp only [List.cons_append, extractWires, ih]
      cases extractWires s with
      | error e => rfl
      | ok a => cases extractWires s' <;> rfl
    | face o i =>
      simp only [List.cons_append, extractWires, ih]
      cases extractWires s with
      | error e => rfl
      | ok a =>
        cases extractWires s' with
        | error e => rfl
        | ok b => simp [ok_bind]
    | other => rfl

theorem profilesOpt_append {cad : Cad} {j : Job} {o : Option ℚ} {sd : Option ℚ} {tabs : Option Tabs} {ws ws' : List (List Edge)}
    {cs : List Motion} : profilesOpt cad j o sd tabs (ws ++ ws') = .ok cs ↔
      ∃ cs1 cs2, profilesOpt cad j o sd tabs ws = .ok cs1 ∧ profilesOpt cad j o sd tabs ws' = .ok cs2 ∧ cs = cs1 ++ cs2 := by
  cases o with
  | none =>
    simp only [profilesOpt]
    constructor
    · intro h; cases h; exact ⟨[], [], rfl, rfl, rfl⟩
    · rintro ⟨_, _, h1, h2, rfl⟩; cases h1; cases h2; rfl
  | some o => exact profiles_append

theorem updateTool_diameter {j : Job} (t : Option Tool) (h : j.toolDiameter ≠ none) : (j.updateTool t).2.toolDiameter ≠ none := by
  cases t with
  | none => exact h
  | some t =>
    obtain ⟨td, tn, fe, sp⟩ := t
    cases td <;> simp only [Job.updateTool] <;> split_ifs <;> simp [h]

theorem profile_pre {cad : Cad} {s : List Shape} {oo io sd : Option ℚ} {tabs : Option Tabs} {t : Option Tool} {j : Job} :
    (profileRequest cad s oo io sd tabs t).pre j = .ok () ↔
      j.toolDiameter ≠ none ∧ ¬(oo = none ∧ io = none) ∧ ∃ a, extractWires s = .ok a := by
  simp only [profileRequest]
  split_ifs with h1 h2
  · simp [h1]
  · simp [h2]
  · cases extractWires s with
    | error e => simp [error_bind]
    | ok a => simp [ok_bind, h1]; tauto

theorem splits_profile (cad : Cad) (s s' : List Shape) (oo io : Option ℚ) (sd : Option ℚ) (tabs : Option Tabs) (t : Option Tool) :
    SplitsInto List.Perm (profileRequest cad (s ++ s') oo io sd tabs t) (profileRequest cad s oo io sd tabs t)
      (profileRequest cad s' oo io sd tabs t) where
  tool1 := rfl
  tool2 := rfl
  pre := fun j => by
    rw [profile_pre, profile_pre, profile_pre, extractWires_append]
    constructor
    · rintro ⟨h1, h2, a, h3⟩
      obtain ⟨x, h4, h3⟩ := bind_ok.mp h3
      obtain ⟨y, h5, h3⟩ := bind_ok.mp h3
      exact ⟨⟨h1, h2, x, h4⟩, updateTool_diameter _ h1, h2, y, h5⟩
    · rintro ⟨⟨h1, h2, x, h4⟩, -, -, y, h5⟩
      exact ⟨h1, h2, _, by rw [h4, h5]; rfl⟩
  made := fun j cs h => by
    simp only [profileRequest, extractWires_append] at h ⊢
    obtain ⟨x, h3, h⟩ := bind_ok.mp h
    obtain ⟨⟨os, is⟩, h4, h3⟩ := bind_ok.mp h3
    obtain ⟨⟨os', is'⟩, h5, h3⟩ := bind_ok.mp h3
    cases h3
    obtain ⟨a, h6, h⟩ := bind_ok.mp h
    obtain ⟨b, h7, h⟩ := bind_ok.mp h
    cases h
    obtain ⟨a1, a2, h8, h9, rfl⟩ := profilesOpt_append.mp h6
    obtain ⟨b1, b2, h10, h11, rfl⟩ := profilesOpt_append.mp h7
    refine ⟨a1 ++ b1, a2 ++ b2, by rw [h4]; simp only [ok_bind, h8, h10], by rw [h5]; simp only [ok_bind, h9, h11], ?_⟩
    rw [List.append_assoc, List.append_assoc]
    refine List.Perm.append_left _ ?_
    rw [← List.append_assoc, ← List.append_assoc]
    exact List.perm_append_comm.append_right _
  join := fun j cs1 cs2 h h' => by
    simp only [profileRequest, extractWires_append] at h h' ⊢
    obtain ⟨⟨os, is⟩, h4, h⟩ := bind_ok.mp h
    obtain ⟨⟨os', is'⟩, h5, h'⟩ := bind_ok.mp h'
    obtain ⟨a1, h8, h⟩ := bind_ok.mp h
    obtain ⟨b1, h10, h⟩ := bind_ok.mp h
    obtain ⟨a2, h9, h'⟩ := bind_ok.mp h'
    obtain ⟨b2, h11, h'⟩ := bind_ok.mp h'
    cases h
    cases h'
    refine ⟨(a1 ++ a2) ++ (b1 ++ b2), ?_, ?_⟩
    · rw [h4, h5]
      simp only [ok_bind, profilesOpt_append.mpr ⟨a1, a2, h8, h9, rfl⟩, profilesOpt_append.mpr ⟨b1, b2, h10, h11, rfl⟩]
    · rw [List.append_assoc, List.append_assoc]
      refine List.Perm.append_left _ ?_
      rw [← List.append_assoc, ← List.append_assoc]
      exact List.perm_append_comm.append_right _

theorem surface3d_append {eng : SurfaceEngine} {k : FaceKernel} {args : SurfaceArgs} {oo : ℚ × ℚ} {io : Option (ℚ × ℚ)}
    {bs bs' : List BoundaryFace} {j : Job} {cs : List Motion} : surface3d eng k args oo io (bs ++ bs') j = .ok cs ↔
      ∃ cs1 cs2, surface3d eng k args oo io bs j = .ok cs1 ∧ surface3d eng k args oo io bs' j = .ok cs2 ∧ cs = cs1 ++ cs2 := by
  unfold surface3d
  generalize (fun f : List Edge × List (List Edge) => wirePolygon f.1 true >>= fun polygon => surfaceBoundary eng args j polygon) = g
  generalize offsetBoundary k args.toolDiameter oo io = f
  constructor
  · intro h
    obtain ⟨fs, h1, h⟩ := bind_ok.mp h
    obtain ⟨css, h2, h⟩ := bind_ok.mp h
    cases h
    obtain ⟨f1, f2, h3, h4, rfl⟩ := mapE_append_iff.mp h1
    rw [List.flatten_append] at h2
    obtain ⟨c1, c2, h5, h6, rfl⟩ := mapE_append_iff.mp h2
    exact ⟨c1.flatten, c2.flatten, by rw [h3, ok_bind, h5, ok_bind], by rw [h4, ok_bind, h6, ok_bind], by simp⟩
  · rintro ⟨cs1, cs2, h, h', rfl⟩
    obtain ⟨f1, h1, h⟩ := bind_ok.mp h
    obtain ⟨c1, h2, h⟩ := bind_ok.mp h
    obtain ⟨f2, h3, h'⟩ := bind_ok.mp h'
    obtain ⟨c2, h4, h'⟩ := bind_ok.mp h'
    cases h
    cases h'
    rw [mapE_append_iff.mpr ⟨f1, f2, h1, h3, rfl⟩, ok_bind, List.flatten_append, mapE_append_iff.mpr ⟨c1, c2, h2, h4, rfl⟩, ok_bind,
      List.flatten_append]

theorem splits_surface (eng : SurfaceEngine) (k : FaceKernel) (args : SurfaceArgs) (oo : ℚ × ℚ) (io : Option (ℚ × ℚ)) (bs bs' : List BoundaryFace) :
    SplitsInto Eq (surface3dRequest eng k args oo io (bs ++ bs')) (surface3dRequest eng k args oo io bs) (surface3dRequest eng k args oo io bs') where
  tool1 := rfl
  tool2 := rfl
  pre := fun _ => ⟨fun _ => ⟨rfl, rfl⟩, fun _ => rfl⟩
  made := fun _ _ h => surface3d_append.mp h
  join := fun _ cs1 cs2 h1 h2 => ⟨cs1 ++ cs2, surface3d_append.mpr ⟨cs1, cs2, h1, h2, rfl⟩, rfl⟩

/-! ### C128 -/

/-- C128, for wire profiles: profiling wires in one call or in two. -/
theorem C128_wire_profile (cad : Cad) (ws ws' : List (List Edge)) (o : ℚ) (sd : Option ℚ) (tabs : Option Tabs) (t : Option Tool)
    {after : List Request} (hf : ∀ r ∈ after, Forgetful r) (j : Job) (before : List Request) :
    (∀ jf, j.chain (before ++ wireProfileRequest cad (ws ++ ws') o sd tabs t :: after) = .ok jf →
      ∃ jf', j.chain (before ++ wireProfileRequest cad ws o sd tabs t :: wireProfileRequest cad ws' o sd tabs t :: after) = .ok jf' ∧
        jf.Past jf' ∧ jf.motions = jf'.motions) ∧
    (∀ jf', j.chain (before ++ wireProfileRequest cad ws o sd tabs t :: wireProfileRequest cad ws' o sd tabs t :: after) = .ok jf' →
      ∃ jf, j.chain (before ++ wireProfileRequest cad (ws ++ ws') o sd tabs t :: after) = .ok jf) :=
  split_program eq_frame (splits_wireProfile cad ws ws' o sd tabs t) (forgetful_wireProfile ..) hf j before

/-- C128, for wire profiles: profiling wires in one call or each in a call of its own. -/
theorem C128_wire_profile_each (cad : Cad) (w : List Edge) (ws : List (List Edge)) (o : ℚ) (sd : Option ℚ) (tabs : Option Tabs) (t : Option Tool)
    {after : List Request} (hf : ∀ r ∈ after, Forgetful r) (j : Job) (before : List Request) :
    (∀ jf, j.chain (before ++ wireProfileRequest cad (w :: ws) o sd tabs t :: after) = .ok jf →
      ∃ jf', j.chain (before ++ ((w :: ws).map (fun w => wireProfileRequest cad [w] o sd tabs t) ++ after)) = .ok jf' ∧
        jf.Past jf' ∧ jf.motions = jf'.motions) ∧
    (∀ jf', j.chain (before ++ ((w :: ws).map (fun w => wireProfileRequest cad [w] o sd tabs t) ++ after)) = .ok jf' →
      ∃ jf, j.chain (before ++ wireProfileRequest cad (w :: ws) o sd tabs t :: after) = .ok jf) := by
  induction ws generalizing w before with
  | nil => exact ⟨fun jf h => ⟨jf, h, .refl jf, rfl⟩, fun jf' h => ⟨jf', h⟩⟩
  | cons w' ws ih =>
    obtain ⟨a1, a2⟩ := C128_wire_profile cad [w] (w' :: ws) o sd tabs t hf j before
    obtain ⟨b1, b2⟩ := ih w' (before ++ [wireProfileRequest cad [w] o sd tabs t])
    simp only [List.append_assoc, List.cons_append, List.nil_append, List.map_cons] at a1 a2 b1 b2 ⊢
    constructor
    · intro jf h
      obtain ⟨jf1, h1, h2, h3⟩ := a1 jf h
      obtain ⟨jf2, h4, h5, h6⟩ := b1 jf1 h1
      exact ⟨jf2, h4, h2.trans h5, h3.trans h6⟩
    · intro jf' h
      obtain ⟨jf1, h1⟩ := b2 jf' h
      exact a2 jf1 h1

/-- C128, for surfacing: surfacing boundaries in one call or in two. -/
theorem C128_surface (eng : SurfaceEngine) (k : FaceKernel) (args : SurfaceArgs) (oo : ℚ × ℚ) (io : Option (ℚ × ℚ)) (bs bs' : List BoundaryFace)
    {after : List Request} (hf : ∀ r ∈ after, Forgetful r) (j : Job) (before : List Request) :
    (∀ jf, j.chain (before ++ surface3dRequest eng k args oo io (bs ++ bs') :: after) = .ok jf →
      ∃ jf', j.chain (before ++ surface3dRequest eng k args oo io bs :: surface3dRequest eng k args oo io bs' :: after) = .ok jf' ∧
        jf.Past jf' ∧ jf.motions = jf'.motions) ∧
    (∀ jf', j.chain (before ++ surface3dRequest eng k args oo io bs :: surface3dRequest eng k args oo io bs' :: after) = .ok jf' →
      ∃ jf, j.chain (before ++ surface3dRequest eng k args oo io (bs ++ bs') :: after) = .ok jf) :=
  split_program eq_frame (splits_surface eng k args oo io bs bs') (forgetful_surface ..) hf j before

/-- C128, for profiles of faces and wires: the same motions, but in one call all inner contours come before all outer ones. -/
theorem C128_profile (cad : Cad) (s s' : List Shape) (oo io : Option ℚ) (sd : Option ℚ) (tabs : Option Tabs) (t : Option Tool)
    {after : List Request} (hf : ∀ r ∈ after, Forgetful r) (j : Job) (before : List Request) :
    (∀ jf, j.chain (before ++ profileRequest cad (s ++ s') oo io sd tabs t :: after) = .ok jf →
      ∃ jf', j.chain (before ++ profileRequest cad s oo io sd tabs t :: profileRequest cad s' oo io sd tabs t :: after) = .ok jf' ∧
        jf.Past jf' ∧ jf.motions.Perm jf'.motions) ∧
    (∀ jf', j.chain (before ++ profileRequest cad s oo io sd tabs t :: profileRequest cad s' oo io sd tabs t :: after) = .ok jf' →
      ∃ jf, j.chain (before ++ profileRequest cad (s ++ s') oo io sd tabs t :: after) = .ok jf) :=
  split_program perm_frame (splits_profile cad s s' oo io sd tabs t) (forgetful_profile ..) hf j before

/-! ### On the machine -/

theorem chainMoves_motions {rs : List Request} : ∀ {j jf : Job}, j.chain rs = .ok jf → jf.motions = j.motions ++ (chainMoves j rs).flatten := by
  induction rs with
  | nil => intro j jf h; cases h; simp [chainMoves]
  | cons r rs ih =>
    intro j jf h
    obtain ⟨j1, h1, h2⟩ := chain_cons_ok h
    obtain ⟨cs, -, a2, -, a4⟩ := call_motions h1
    rw [ih h2, a4]
    simp only [chainMoves, a2, h1, List.flatten_cons, List.append_assoc]

theorem performs_flatten {evss : List (List Event)} {css : List (List Motion)}
    (h : List.Forall₂ (fun evs mv => List.Forall₂ Performs (evs.filter isMove) mv) evss css) :
    List.Forall₂ Performs (evss.flatten.filter isMove) css.flatten := by
  induction h with
  | nil => exact .nil
  | cons h _ ih =>
    rw [List.flatten_cons, List.flatten_cons, List.filter_append]
    exact List.rel_append h ih

theorem SameWay.refl (c : Motion) : SameWay c c := ⟨rfl, rfl, rfl, rfl, rfl, rfl⟩

theorem performs_pair {es es' : List Event} {cs : List Motion} (h : List.Forall₂ Performs es cs) : List.Forall₂ Performs es' cs →
    List.Forall₂ MovesAlike es es' := by
  induction h generalizing es' with
  | nil => intro h; cases h; exact .nil
  | cons hx _ ih =>
    intro h
    cases h with
    | cons hy hys => exact .cons (performs_alike (.refl _) hx hy) (ih hys)

/-- Two chains of calls that make the same motions, in another order perhaps: on the machine the moves are the same, in another order. -/
theorem machine_perm {j0 jf jf' : Job} {rs rs' : List Request} (m m' : Machine) (h0 : InitOK j0)
    (hn : ∀ v, j0.toolNumber = some v → NumOK v) (hok : ChainOK j0 rs) (hok' : ChainOK j0 rs') (h : j0.chain rs = .ok jf)
    (h' : j0.chain rs' = .ok jf') (hm : jf.motions.Perm jf'.motions)
    (hend : m.ended = false) (hend' : m'.ended = false) (htool : ∀ n, j0.toolNumber = some n → m.tool = some n.value)
    (htool' : ∀ n, j0.toolNumber = some n → m'.tool = some n.value) :
    ∃ t t' m1 m1' evs evs' l, jf.toGcode = .ok t ∧ jf'.toGcode = .ok t' ∧ runText m t = some (m1, evs) ∧ runText m' t' = some (m1', evs') ∧
      l.Perm (evs'.filter isMove) ∧ List.Forall₂ MovesAlike (evs.filter isMove) l := by
  obtain ⟨t, m1, a, b, c, evss, p1, p2, p3, p4, p5, p6, p7, -⟩ := chain_program m h0 hn hok h hend htool
  obtain ⟨t', m1', a', b', c', evss', q1, q2, q3, q4, q5, q6, q7, -⟩ := chain_program m' h0 hn hok' h' hend' htool'
  rw [chainMoves_motions h, chainMoves_motions h', List.perm_append_left_iff] at hm
  have hp := performs_flatten p6
  have hq := performs_flatten q6
  have hfilt : ∀ (x y z : Event) (l : List Event), x.act = .home → y.act = .home → z.act = .stop →
      (x :: (l ++ [y, z])).filter isMove = l.filter isMove := by
    intro x y z l hx hy hz
    simp [List.filter_append, isMove, hx, hy, hz]
  obtain ⟨l, hl, hlp⟩ := List.perm_comp_forall₂ hm hq.flip
  refine ⟨t, t', m1, m1', a :: (evss.flatten ++ [b, c]), a' :: (evss'.flatten ++ [b', c']), l, p1, q1, p2, q2, ?_, ?_⟩
  · rw [hfilt a' b' c' _ q3 q4 q5]
    exact hlp
  · rw [hfilt a b c _ p3 p4 p5]
    exact performs_pair hp hl.flip

/-- Two chains of calls that make the same motions: on the machine the moves are the same. -/
theorem machine_same {j0 jf jf' : Job} {rs rs' : List Request} (m m' : Machine) (h0 : InitOK j0)
    (hn : ∀ v, j0.toolNumber = some v → NumOK v) (hok : ChainOK j0 rs) (hok' : ChainOK j0 rs') (h : j0.chain rs = .ok jf)
    (h' : j0.chain rs' = .ok jf') (hm : jf.motions = jf'.motions)
    (hend : m.ended = false) (hend' : m'.ended = false) (htool : ∀ n, j0.toolNumber = some n → m.tool = some n.value)
    (htool' : ∀ n, j0.toolNumber = some n → m'.tool = some n.value) :
    ∃ t t' m1 m1' evs evs', jf.toGcode = .ok t ∧ jf'.toGcode = .ok t' ∧ runText m t = some (m1, evs) ∧ runText m' t' = some (m1', evs') ∧
      List.Forall₂ MovesAlike (evs.filter isMove) (evs'.filter isMove) := by
  obtain ⟨t, m1, a, b, c, evss, p1, p2, p3, p4, p5, p6, p7, -⟩ := chain_program m h0 hn hok h hend htool
  obtain ⟨t', m1', a', b', c', evss', q1, q2, q3, q4, q5, q6, q7, -⟩ := chain_program m' h0 hn hok' h' hend' htool'
  rw [chainMoves_motions h, chainMoves_motions h', List.append_cancel_left_eq] at hm
  have hp := performs_flatten p6
  have hq := performs_flatten q6
  rw [← hm] at hq
  refine ⟨t, t', m1, m1', a :: (evss.flatten ++ [b, c]), a' :: (evss'.flatten ++ [b', c']), p1, q1, p2, q2, ?_⟩
  simp only [List.filter_cons, List.filter_append, isMove, p3, p4, p5, q3, q4, q5]
  simpa using performs_pair hp hq

/-- C128 on the machine: the program with one call and the program with two run, and the machine makes the same moves. -/
theorem C128_machine {j0 jf : Job} {before after : List Request} {r r1 r2 : Request} (m m' : Machine) (hs : SplitsInto Eq r r1 r2)
    (h2 : Forgetful r2) (hf : ∀ r ∈ after, Forgetful r) (h0 : InitOK j0) (hn : ∀ v, j0.toolNumber = some v → NumOK v)
    (hok : ChainOK j0 (before ++ r :: after)) (hok' : ChainOK j0 (before ++ r1 :: r2 :: after))
    (h : j0.chain (before ++ r :: after) = .ok jf) (hend : m.ended = false) (hend' : m'.ended = false)
    (htool : ∀ n, j0.toolNumber = some n → m.tool = some n.value) (htool' : ∀ n, j0.toolNumber = some n → m'.tool = some n.value) :
    ∃ jf' t t' m1 m1' evs evs', j0.chain (before ++ r1 :: r2 :: after) = .ok jf' ∧ jf.toGcode = .ok t ∧ jf'.toGcode = .ok t' ∧
      runText m t = some (m1, evs) ∧ runText m' t' = some (m1', evs') ∧
      List.Forall₂ MovesAlike (evs.filter isMove) (evs'.filter isMove) := by
  obtain ⟨jf', h1, -, h3⟩ := (split_program eq_frame hs h2 hf j0 before).1 jf h
  obtain ⟨t, t', m1, m1', evs, evs', p⟩ := machine_same m m' h0 hn hok hok' h h1 h3 hend hend' htool htool'
  exact ⟨jf', t, t', m1, m1', evs, evs', h1, p⟩

/-- C128 on the machine, for profiles of faces: the same moves, in another order. -/
theorem C128_machine_profile {j0 jf : Job} {before after : List Request} (cad : Cad) (s s' : List Shape) (oo io : Option ℚ) (sd : Option ℚ)
    (tabs : Option Tabs) (t : Option Tool) (m m' : Machine) (hf : ∀ r ∈ after, Forgetful r) (h0 : InitOK j0)
    (hn : ∀ v, j0.toolNumber = some v → NumOK v) (hok : ChainOK j0 (before ++ profileRequest cad (s ++ s') oo io sd tabs t :: after))
    (hok' : ChainOK j0 (before ++ profileRequest cad s oo io sd tabs t :: profileRequest cad s' oo io sd tabs t :: after))
    (h : j0.chain (before ++ profileRequest cad (s ++ s') oo io sd tabs t :: after) = .ok jf) (hend : m.ended = false)
    (hend' : m'.ended = false) (htool : ∀ n, j0.toolNumber = some n → m.tool = some n.value)
    (htool' : ∀ n, j0.toolNumber = some n → m'.tool = some n.value) :
    ∃ jf' t1 t' m1 m1' evs evs' l,
      j0.chain (before ++ profileRequest cad s oo io sd tabs t :: profileRequest cad s' oo io sd tabs t :: after) = .ok jf' ∧
      jf.toGcode = .ok t1 ∧ jf'.toGcode = .ok t' ∧ runText m t1 = some (m1, evs) ∧ runText m' t' = some (m1', evs') ∧
      l.Perm (evs'.filter isMove) ∧ List.Forall₂ MovesAlike (evs.filter isMove) l := by
  obtain ⟨jf', h1, -, h3⟩ := (C128_profile cad s s' oo io sd tabs t hf j0 before).1 jf h
  obtain ⟨t1, t', m1, m1', evs, evs', l, p⟩ := machine_perm m m' h0 hn hok hok' h h1 h3 hend hend' htool htool'
  exact ⟨jf', t1, t', m1, m1', evs, evs', l, h1, p⟩

end CQ
