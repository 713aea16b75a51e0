import Verif.Proofs.Region

/-! # Lemmas about `build_pocket_ops` -/

namespace CQ

/-! ### The depth map -/

theorem depthMap_get_add (f : PathFace) (d : ℚ) (m : DepthMap) :
    (m.add f).get d = m.get d ++ (if f.depth = d then [f] else []) := by
  induction m with
  | nil => by_cases h : f.depth = d <;> simp [DepthMap.add, DepthMap.get, h]
  | cons x m ih =>
    obtain ⟨e, fs⟩ := x
    unfold DepthMap.add
    by_cases h : e = f.depth
    · subst h
      rw [if_pos rfl]
      by_cases h' : f.depth = d <;> simp [DepthMap.get, h']
    · rw [if_neg h]
      simp only [DepthMap.get]
      by_cases h' : e = d
      · rw [if_pos h', if_pos h']
        have : f.depth ≠ d := fun h'' => h (h'.trans h''.symm)
        simp [this]
      · rw [if_neg h', if_neg h', ih]

theorem depthMap_keys_add (f : PathFace) (m : DepthMap) :
    (m.add f).map Prod.fst = if f.depth ∈ m.map Prod.fst then m.map Prod.fst else m.map Prod.fst ++ [f.depth] := by
  induction m with
  | nil => simp [DepthMap.add]
  | cons x m ih =>
    obtain ⟨e, fs⟩ := x
    unfold DepthMap.add
    by_cases h : e = f.depth
    · rw [if_pos h]; simp [h]
    · rw [if_neg h]
      simp only [List.map_cons, ih, List.mem_cons]
      have : ¬ f.depth = e := fun h' => h h'.symm
      simp only [this, false_or]
      split <;> simp

theorem depthMapFrom_ok {faces : List PathFace} {m m' : DepthMap} (h : depthMapFrom m faces = .ok m') :
    (∀ f ∈ faces, f.depth ≤ 0) ∧ (∀ d, m'.get d = m.get d ++ faces.filter (fun f => decide (f.depth = d))) ∧
      ((m.map Prod.fst).Nodup → (m'.map Prod.fst).Nodup) ∧
      ∀ d, d ∈ m'.map Prod.fst ↔ d ∈ m.map Prod.fst ∨ ∃ f ∈ faces, f.depth = d := by
  induction faces generalizing m with
  | nil => cases h; simp
  | cons f fs ih =>
    unfold depthMapFrom at h
    by_cases hf : f.depth > 0
    · rw [if_pos hf] at h; cases h
    · rw [if_neg hf] at h
      obtain ⟨h1, h2, h3, h4⟩ := ih h
      refine ⟨?_, ?_, ?_, ?_⟩
      · intro g hg
        rcases List.mem_cons.mp hg with rfl | hg
        · exact not_lt.mp hf
        · exact h1 g hg
      · intro d
        rw [h2 d, depthMap_get_add, List.append_assoc]
        congr 1
        by_cases hd : f.depth = d <;> simp [hd]
      · intro hn
        apply h3
        rw [depthMap_keys_add]
        split
        · exact hn
        · rename_i hm
          rw [List.nodup_append]
          exact ⟨hn, by simp, by intro a ha b hb; simp at hb; subst hb; exact fun hab => hm (hab ▸ ha)⟩
      · intro d
        rw [h4 d, depthMap_keys_add]
        constructor
        · rintro (h | ⟨g, hg, rfl⟩)
          · split at h
            · exact Or.inl h
            · rcases List.mem_append.mp h with h | h
              · exact Or.inl h
              · rw [List.mem_singleton] at h
                exact Or.inr ⟨f, by simp, h.symm⟩
          · exact Or.inr ⟨g, by simp [hg], rfl⟩
        · rintro (h | ⟨g, hg, rfl⟩)
          · left; split
            · exact h
            · exact List.mem_append_left _ h
          · rcases List.mem_cons.mp hg with rfl | hg
            · left; split
              · assumption
              · simp
            · exact Or.inr ⟨g, hg, rfl⟩

theorem depthMapFrom_error {faces : List PathFace} {m : DepthMap} (h : ∃ f ∈ faces, 0 < f.depth) :
    depthMapFrom m faces = .error .valueError := by
  induction faces generalizing m with
  | nil => obtain ⟨f, hf, -⟩ := h; simp at hf
  | cons f fs ih =>
    unfold depthMapFrom
    by_cases hf : f.depth > 0
    · rw [if_pos hf]
    · rw [if_neg hf]
      obtain ⟨g, hg, h⟩ := h
      rcases List.mem_cons.mp hg with rfl | hg
      · exact absurd h hf
      · exact ih ⟨g, hg, h⟩

theorem depthMapFrom_total {faces : List PathFace} {m : DepthMap} (h : ∀ f ∈ faces, f.depth ≤ 0) :
    ∃ m', depthMapFrom m faces = .ok m' := by
  induction faces generalizing m with
  | nil => exact ⟨m, rfl⟩
  | cons f fs ih =>
    unfold depthMapFrom
    rw [if_neg (not_lt.mpr (h f (by simp)))]
    exact ih (fun g hg => h g (by simp [hg]))

/-- What `generate_depth_map` returns. -/
structure DepthsOK (faces : List PathFace) (m : DepthMap) (ds : List ℚ) : Prop where
  below : ∀ f ∈ faces, f.depth ≤ 0
  get : ∀ d, m.get d = faces.filter (fun f => decide (f.depth = d))
  sorted : ds.Pairwise (fun a b => b < a)
  mem : ∀ d, d ∈ ds ↔ ∃ f ∈ faces, f.depth = d

theorem generateDepthMap_ok {faces : List PathFace} {m : DepthMap} {ds : List ℚ}
    (h : generateDepthMap faces = .ok (m, ds)) : DepthsOK faces m ds := by
  unfold generateDepthMap at h
  obtain ⟨m', h1, h2⟩ := bind_ok.mp h
  cases h2
  obtain ⟨g1, g2, g3, g4⟩ := depthMapFrom_ok h1
  have hp := List.perm_insertionSort (fun a b : ℚ => b ≤ a) (m.map Prod.fst)
  refine ⟨g1, by simpa [DepthMap.get] using g2, ?_, ?_⟩
  · have hs : ((m.map Prod.fst).insertionSort (fun a b : ℚ => b ≤ a)).Pairwise (fun a b => b ≤ a) :=
      List.pairwise_insertionSort _ _
    have hn : ((m.map Prod.fst).insertionSort (fun a b : ℚ => b ≤ a)).Nodup := hp.symm.nodup (g3 (by simp))
    exact (hs.and hn).imp (fun {a b} h => lt_of_le_of_ne h.1 (Ne.symm h.2))
  · intro d
    rw [hp.mem_iff, g4 d]
    simp

/-! ### Faces of several depths -/

theorem filter_or_perm {α : Type} (p q : α → Bool) (l : List α) (h : ∀ a ∈ l, ¬ (p a ∧ q a)) :
    (l.filter p ++ l.filter q).Perm (l.filter (fun a => p a || q a)) := by
  induction l with
  | nil => simp
  | cons a l ih =>
    have ih := ih (fun b hb => h b (by simp [hb]))
    have ha := h a (by simp)
    cases hp : p a <;> cases hq : q a
    · simpa [hp, hq] using ih
    · simp only [List.filter_cons, hp, hq]
      simp only [Bool.or_true, if_true, Bool.false_eq_true, if_false]
      exact (List.perm_middle).trans (ih.cons a)
    · simp only [List.filter_cons, hp, hq]
      simpa using ih
    · exact absurd ⟨hp, hq⟩ ha

theorem depths_perm {faces : List PathFace} {ds : List ℚ} (hn : ds.Nodup) :
    (ds.map (fun d => faces.filter (fun f => decide (f.depth = d)))).flatten.Perm
      (faces.filter (fun f => decide (f.depth ∈ ds))) := by
  induction ds with
  | nil => simp
  | cons d ds ih =>
    obtain ⟨h1, h2⟩ := List.nodup_cons.mp hn
    simp only [List.map_cons, List.flatten_cons]
    refine ((List.Perm.append_left _ (ih h2))).trans ?_
    refine (filter_or_perm _ _ faces ?_).trans (List.Perm.of_eq ?_)
    · rintro f - ⟨a, b⟩
      simp only [decide_eq_true_eq] at a b
      exact h1 (a ▸ b)
    · apply List.filter_congr
      intro f _
      simp [Bool.decide_or]

theorem sorted_suffix {ds : List ℚ} (hs : ds.Pairwise (fun a b => b < a)) {k : ℕ} {d : ℚ} (hk : ds[k]? = some d) (x : ℚ)
    (hx : x ∈ ds) : x ∈ d :: ds.drop (k + 1) ↔ x ≤ d := by
  have hlt := (List.getElem?_eq_some_iff.mp hk).1
  have hd := (List.getElem?_eq_some_iff.mp hk).2
  have hsplit : ds = ds.take k ++ d :: ds.drop (k + 1) := by
    rw [← hd, ← List.drop_eq_getElem_cons hlt, List.take_append_drop]
  rw [hsplit] at hs hx
  rw [List.pairwise_append] at hs
  obtain ⟨-, h2, h3⟩ := hs
  constructor
  · intro h
    rcases List.mem_cons.mp h with rfl | h
    · exact le_rfl
    · exact le_of_lt ((List.pairwise_cons.mp h2).1 x h)
  · intro h
    rcases List.mem_append.mp hx with hx | hx
    · exact absurd h (not_le.mpr (h3 x hx d (by simp)))
    · exact hx

theorem faces_at_perm {faces : List PathFace} {m : DepthMap} {ds : List ℚ} (h : DepthsOK faces m ds) {k : ℕ} {d : ℚ}
    (hk : ds[k]? = some d) :
    (m.get d ++ ((ds.drop (k + 1)).map (fun d => m.get d)).flatten).Perm
      (faces.filter (fun f => decide (f.depth ≤ d))) := by
  have h1 : m.get d ++ ((ds.drop (k + 1)).map (fun d => m.get d)).flatten =
      ((d :: ds.drop (k + 1)).map (fun d => faces.filter (fun f => decide (f.depth = d)))).flatten := by
    simp only [List.map_cons, List.flatten_cons, h.get]
  have hlt := (List.getElem?_eq_some_iff.mp hk).1
  have hd := (List.getElem?_eq_some_iff.mp hk).2
  have hn : ds.Nodup := h.sorted.imp (fun hab => (ne_of_lt hab).symm)
  rw [h1]
  refine (depths_perm ?_).trans (List.Perm.of_eq ?_)
  · rw [← hd, ← List.drop_eq_getElem_cons hlt]
    exact hn.sublist (List.drop_sublist _ _)
  · apply List.filter_congr
    intro f hf
    have := sorted_suffix h.sorted hk f.depth ((h.mem _).mpr ⟨f, hf, rfl⟩)
    simp only [this]

theorem avoid_at_perm {avoids : List PathFace} {m : DepthMap} {ds : List ℚ} (h : DepthsOK avoids m ds) (d : ℚ) :
    (((ds.filter (fun a => decide (d ≤ a))).map (fun a => m.get a)).flatten).Perm
      (avoids.filter (fun f => decide (d ≤ f.depth))) := by
  have hn : ds.Nodup := h.sorted.imp (fun hab => (ne_of_lt hab).symm)
  have h1 : (ds.filter (fun a => decide (d ≤ a))).map (fun a => m.get a) =
      (ds.filter (fun a => decide (d ≤ a))).map (fun d => avoids.filter (fun f => decide (f.depth = d))) := by
    simp only [h.get]
  rw [h1]
  refine (depths_perm (hn.filter _)).trans (List.Perm.of_eq ?_)
  apply List.filter_congr
  intro f hf
  have := (h.mem f.depth).mpr ⟨f, hf, rfl⟩
  simp [this]

/-! ### One depth -/

theorem depthOps_ok {eng : Clipper} {dm am : DepthMap} {ad deeper : List ℚ} {d : ℚ} {ops : List PathFace}
    (h : depthOps eng dm am ad d deeper = .ok ops) :
    ∃ (faces : List PathFace) (avoid : List PathFace) (ut dt : List PolyNode) (us : List PathFace),
      faces = dm.get d ++ (deeper.map (fun d => dm.get d)).flatten ∧
      avoid = ((ad.filter (fun a => decide (d ≤ a))).map (fun a => am.get a)).flatten ∧
      eng.union (faces.map PathFace.outer) [] = .ok ut ∧ polyTreeToPolyFaces ut d = .ok us ∧
      eng.difference (us.map PathFace.outer) ((faces.map PathFace.inners).flatten ++ avoid.map PathFace.outer) = .ok dt ∧
      polyTreeToPolyFaces dt d = .ok ops := by
  unfold depthOps at h
  obtain ⟨cs, h1, h2⟩ := bind_ok.mp h
  unfold combineOuters at h1
  obtain ⟨us, h3, h4⟩ := bind_ok.mp h1
  cases h4
  unfold unionPolyTree at h3
  obtain ⟨ut, h5, h6⟩ := bind_ok.mp h3
  by_cases ha : ad = []
  · simp only [ha, ne_eq, not_true_eq_false, if_false] at h2
    obtain ⟨dt, h7, h8⟩ := bind_ok.mp h2
    exact ⟨_, _, ut, dt, us, rfl, rfl, h5, h6, by simpa [ha] using h7, h8⟩
  · simp only [ha, ne_eq, not_false_eq_true, if_true] at h2
    obtain ⟨dt, h7, h8⟩ := bind_ok.mp h2
    exact ⟨_, _, ut, dt, us, rfl, rfl, h5, h6, h7, h8⟩

theorem depthsOps_ok {eng : Clipper} {dm am : DepthMap} {ad ds : List ℚ} {ops : List PathFace}
    (h : depthsOps eng dm am ad ds = .ok ops) :
    ∃ gs : List (List PathFace), ops = gs.flatten ∧ gs.length = ds.length ∧
      ∀ (k : ℕ) (d : ℚ), ds[k]? = some d → ∃ g, gs[k]? = some g ∧ depthOps eng dm am ad d (ds.drop (k + 1)) = .ok g := by
  induction ds generalizing ops with
  | nil => cases h; exact ⟨[], rfl, rfl, by simp⟩
  | cons d ds ih =>
    unfold depthsOps at h
    obtain ⟨o, h1, h2⟩ := bind_ok.mp h
    obtain ⟨r, h3, h4⟩ := bind_ok.mp h2
    cases h4
    obtain ⟨gs, rfl, hl, hg⟩ := ih h3
    refine ⟨o :: gs, by simp, by simp [hl], ?_⟩
    intro k e hk
    cases k with
    | zero => cases hk; exact ⟨o, rfl, h1⟩
    | succ k =>
      obtain ⟨g, g1, g2⟩ := hg k e hk
      exact ⟨g, g1, g2⟩

theorem buildPocketOps_ok {eng : Clipper} {opAreas avoidAreas ops : List PathFace}
    (h : buildPocketOps eng opAreas avoidAreas = .ok ops) :
    ∃ dm ds am ad, DepthsOK opAreas dm ds ∧ DepthsOK avoidAreas am ad ∧ depthsOps eng dm am ad ds = .ok ops := by
  unfold buildPocketOps at h
  obtain ⟨⟨dm, ds⟩, h1, h⟩ := bind_ok.mp h
  obtain ⟨⟨am, ad⟩, h2, h⟩ := bind_ok.mp h
  exact ⟨dm, ds, am, ad, generateDepthMap_ok h1, generateDepthMap_ok h2, h⟩

/-- For every face the code is about to clear: the engine calls it came from. -/
theorem ops_from {eng : Clipper} {opAreas avoidAreas ops : List PathFace}
    (h : buildPocketOps eng opAreas avoidAreas = .ok ops) (d : ℚ) (hd : ∃ f ∈ opAreas, f.depth = d) :
    ∃ (outers clips : List (List Pt)) (ut dt : List PolyNode) (us fs : List PathFace),
      outers.Perm (outersAt opAreas d) ∧ clips.Perm (holesAt opAreas d ++ avoidAt avoidAreas d) ∧
      eng.union outers [] = .ok ut ∧ polyTreeToPolyFaces ut d = .ok us ∧
      eng.difference (us.map PathFace.outer) clips = .ok dt ∧ polyTreeToPolyFaces dt d = .ok fs ∧
      ∀ f, (f ∈ ops ∧ f.depth = d) ↔ f ∈ fs := by
  obtain ⟨dm, ds, am, ad, h1, h2, h3⟩ := buildPocketOps_ok h
  obtain ⟨gs, rfl, hl, hg⟩ := depthsOps_ok h3
  obtain ⟨k, hk⟩ := List.mem_iff_getElem?.mp ((h1.mem d).mpr hd)
  obtain ⟨g, g1, g2⟩ := hg k d hk
  obtain ⟨faces, avoid, ut, dt, us, e1, e2, e3, e4, e5, e6⟩ := depthOps_ok g2
  have hf := faces_at_perm h1 hk
  rw [← e1] at hf
  have ha := avoid_at_perm h2 d
  rw [← e2] at ha
  refine ⟨_, _, ut, dt, us, g, hf.map _, ?_, e3, e4, e5, e6, ?_⟩
  · exact List.Perm.append ((hf.map _).flatten) (ha.map _)
  · intro f
    constructor
    · rintro ⟨hm, hfd⟩
      obtain ⟨g', hg', hm'⟩ := List.mem_flatten.mp hm
      obtain ⟨k', hk'⟩ := List.mem_iff_getElem?.mp hg'
      have hlt : k' < ds.length := by rw [← hl]; exact (List.getElem?_eq_some_iff.mp hk').1
      obtain ⟨g'', h4, h5⟩ := hg k' ds[k'] (List.getElem?_eq_getElem hlt)
      rw [hk'] at h4
      cases h4
      obtain ⟨_, _, _, _, _, _, _, _, _, _, e6'⟩ := depthOps_ok h5
      have hd' := polyTree_depth e6' hm'
      have hn : ds.Nodup := h1.sorted.imp (fun hab => (ne_of_lt hab).symm)
      have : k' = k := by
        refine (List.getElem?_inj hlt hn).mp ?_
        rw [List.getElem?_eq_getElem hlt, hk, ← hd', hfd]
      subst this
      rw [hk'] at g1
      cases g1
      exact hm'
    · intro hm
      exact ⟨List.mem_flatten.mpr ⟨g, List.mem_of_getElem? g1, hm⟩, polyTree_depth e6 hm⟩

end CQ
