import Verif.Proofs.PocketOps
import Verif.Proofs.PocketFill
import Verif.Spec.PocketCq

/-! # Lemmas about `pocket_cq` -/

namespace CQ

section
variable {F : Type}

/-! ### The depth map -/

theorem faceMap_get_add (z : ℚ) (f : F) (d : ℚ) (m : FaceMap F) :
    (m.add z f).get d = m.get d ++ (if z = d then [f] else []) := by
  induction m with
  | nil => by_cases h : z = d <;> simp [FaceMap.add, FaceMap.get, h]
  | cons x m ih =>
    obtain ⟨e, fs⟩ := x
    unfold FaceMap.add
    by_cases h : e = z
    · subst h
      rw [if_pos rfl]
      by_cases h' : e = d <;> simp [FaceMap.get, h']
    · rw [if_neg h]
      simp only [FaceMap.get]
      by_cases h' : e = d
      · rw [if_pos h', if_pos h']
        have : z ≠ d := fun h'' => h (h'.trans h''.symm)
        simp [this]
      · rw [if_neg h', if_neg h', ih]

theorem faceMap_keys_add (z : ℚ) (f : F) (m : FaceMap F) :
    (m.add z f).map Prod.fst = if z ∈ m.map Prod.fst then m.map Prod.fst else m.map Prod.fst ++ [z] := by
  induction m with
  | nil => simp [FaceMap.add]
  | cons x m ih =>
    obtain ⟨e, fs⟩ := x
    unfold FaceMap.add
    by_cases h : e = z
    · rw [if_pos h]; simp [h]
    · rw [if_neg h]
      simp only [List.map_cons, ih, List.mem_cons]
      have : ¬ z = e := fun h' => h h'.symm
      simp only [this, false_or]
      split <;> simp

variable {k : FaceKernelCq F}

theorem faceMapFrom_ok {faces : List F} {m m' : FaceMap F} (h : faceMapFrom k m faces = .ok m') :
    (∀ f ∈ faces, k.zmax f ≤ 0) ∧ (∀ d, m'.get d = m.get d ++ faces.filter (fun f => decide (k.zmax f = d))) ∧
      ((m.map Prod.fst).Nodup → (m'.map Prod.fst).Nodup) ∧
      ∀ d, d ∈ m'.map Prod.fst ↔ d ∈ m.map Prod.fst ∨ ∃ f ∈ faces, k.zmax f = d := by
  induction faces generalizing m with
  | nil => cases h; simp
  | cons f fs ih =>
    unfold faceMapFrom at h
    by_cases hf : k.zmax f > 0
    · rw [if_pos hf] at h; cases h
    · rw [if_neg hf] at h
      obtain ⟨h1, h2, h3, h4⟩ := ih h
      refine ⟨?_, ?_, ?_, ?_⟩
      · intro g hg
        rcases List.mem_cons.mp hg with rfl | hg
        · exact not_lt.mp hf
        · exact h1 g hg
      · intro d
        rw [h2 d, faceMap_get_add, List.append_assoc]
        congr 1
        by_cases hd : k.zmax f = d <;> simp [hd]
      · intro hn
        apply h3
        rw [faceMap_keys_add]
        split
        · exact hn
        · rename_i hm
          rw [List.nodup_append]
          exact ⟨hn, by simp, by intro a ha b hb; simp at hb; subst hb; exact fun hab => hm (hab ▸ ha)⟩
      · intro d
        rw [h4 d, faceMap_keys_add]
        constructor
        · rintro (h | ⟨g, hg, rfl⟩)
          · split at h
            · exact Or.inl h
            · rcases List.mem_append.mp h with h | h
              · exact Or.inl h
              · rw [List.mem_singleton] at h
                exact Or.inr ⟨f, by simp, h.symm⟩
          · exact Or.inr ⟨g, by simp [hg], rfl⟩
        · rintro (h | ⟨g, hg, rfl⟩)
          · left; split
            · exact h
            · exact List.mem_append_left _ h
          · rcases List.mem_cons.mp hg with rfl | hg
            · left; split
              · assumption
              · simp
            · exact Or.inr ⟨g, hg, rfl⟩

theorem faceMapFrom_error {faces : List F} {m : FaceMap F} (h : ∃ f ∈ faces, 0 < k.zmax f) :
    faceMapFrom k m faces = .error .valueError := by
  induction faces generalizing m with
  | nil => obtain ⟨f, hf, -⟩ := h; simp at hf
  | cons f fs ih =>
    unfold faceMapFrom
    by_cases hf : k.zmax f > 0
    · rw [if_pos hf]
    · rw [if_neg hf]
      obtain ⟨g, hg, h⟩ := h
      rcases List.mem_cons.mp hg with rfl | hg
      · exact absurd h hf
      · exact ih ⟨g, hg, h⟩

theorem faceMapFrom_total {faces : List F} {m : FaceMap F} (h : ∀ f ∈ faces, k.zmax f ≤ 0) :
    ∃ m', faceMapFrom k m faces = .ok m' := by
  induction faces generalizing m with
  | nil => exact ⟨m, rfl⟩
  | cons f fs ih =>
    unfold faceMapFrom
    rw [if_neg (not_lt.mpr (h f (by simp)))]
    exact ih (fun g hg => h g (by simp [hg]))

/-- What `generate_depth_map` returns. -/
structure FaceMapOK (k : FaceKernelCq F) (faces : List F) (m : FaceMap F) (ds : List ℚ) : Prop where
  below : ∀ f ∈ faces, k.zmax f ≤ 0
  get : ∀ d, m.get d = faces.filter (fun f => decide (k.zmax f = d))
  sorted : ds.Pairwise (fun a b => b < a)
  mem : ∀ d, d ∈ ds ↔ ∃ f ∈ faces, k.zmax f = d

theorem generateFaceMap_ok {faces : List F} {m : FaceMap F} {ds : List ℚ}
    (h : generateFaceMap k faces = .ok (m, ds)) : FaceMapOK k faces m ds := by
  unfold generateFaceMap at h
  obtain ⟨m', h1, h2⟩ := bind_ok.mp h
  cases h2
  obtain ⟨g1, g2, g3, g4⟩ := faceMapFrom_ok h1
  have hp := List.perm_insertionSort (fun a b : ℚ => b ≤ a) (m.map Prod.fst)
  refine ⟨g1, by simpa [FaceMap.get] using g2, ?_, ?_⟩
  · have hs : ((m.map Prod.fst).insertionSort (fun a b : ℚ => b ≤ a)).Pairwise (fun a b => b ≤ a) :=
      List.pairwise_insertionSort _ _
    have hn : ((m.map Prod.fst).insertionSort (fun a b : ℚ => b ≤ a)).Nodup := hp.symm.nodup (g3 (by simp))
    exact (hs.and hn).imp (fun {a b} h => lt_of_le_of_ne h.1 (Ne.symm h.2))
  · intro d
    rw [hp.mem_iff, g4 d]
    simp

theorem FaceMapOK.mem_get {faces : List F} {m : FaceMap F} {ds : List ℚ} (h : FaceMapOK k faces m ds) {d : ℚ} {f : F} :
    f ∈ m.get d ↔ f ∈ faces ∧ k.zmax f = d := by rw [h.get]; simp

/-! ### One depth -/

/-- The faces combined at one depth. -/
theorem mem_combined {faces : List F} {m : FaceMap F} {ds : List ℚ} (h : FaceMapOK k faces m ds) (zDir : Vec) {n : ℕ} {d : ℚ}
    (hn : ds[n]? = some d) (x : F) :
    x ∈ m.get d ++ ((ds.drop (n + 1)).map (movedFaces k zDir m d)).flatten ↔
      (x ∈ faces ∧ k.zmax x = d) ∨
        ∃ f ∈ faces, k.zmax f < d ∧ x = k.translate (Vec.smul (d - k.zmax f) zDir) f := by
  have hds : d ∈ ds := List.mem_of_getElem? hn
  rw [List.mem_append, h.mem_get]
  refine or_congr Iff.rfl ?_
  simp only [List.mem_flatten, List.mem_map, movedFaces]
  have hs : ∀ e, e ∈ ds.drop (n + 1) ↔ e ∈ ds ∧ e < d := by
    intro e
    have hlt := (List.getElem?_eq_some_iff.mp hn).1
    have hd := (List.getElem?_eq_some_iff.mp hn).2
    have hsplit : ds = ds.take n ++ d :: ds.drop (n + 1) := by
      rw [← hd, ← List.drop_eq_getElem_cons hlt, List.take_append_drop]
    have hp := h.sorted
    rw [hsplit, List.pairwise_append, List.pairwise_cons] at hp
    constructor
    · intro he; exact ⟨List.mem_of_mem_drop he, hp.2.1.1 e he⟩
    · rintro ⟨he, hlt⟩
      rw [hsplit] at he
      rcases List.mem_append.mp he with he | he
      · exact absurd (hp.2.2 e he d (by simp)) (by linarith)
      rcases List.mem_cons.mp he with rfl | he
      · exact absurd hlt (lt_irrefl _)
      · exact he
  constructor
  · rintro ⟨l, ⟨e, he, rfl⟩, hx⟩
    obtain ⟨f, hf, rfl⟩ := List.mem_map.mp hx
    obtain ⟨hf', rfl⟩ := h.mem_get.mp hf
    exact ⟨f, hf', ((hs _).mp he).2, rfl⟩
  · rintro ⟨f, hf, hlt, rfl⟩
    exact ⟨_, ⟨k.zmax f, (hs _).mpr ⟨(h.mem _).mpr ⟨f, hf, rfl⟩, hlt⟩, rfl⟩,
      List.mem_map.mpr ⟨f, h.mem_get.mpr ⟨hf, rfl⟩, rfl⟩⟩

/-- The avoid faces active at one depth. -/
theorem mem_active {faces : List F} {m : FaceMap F} {ds : List ℚ} (h : FaceMapOK k faces m ds) (zDir : Vec) (d : ℚ) (x : F) :
    x ∈ ((ds.filter (fun a => decide (d ≤ a))).map (movedFaces k zDir m d)).flatten ↔
      ∃ f ∈ faces, d ≤ k.zmax f ∧ x = k.translate (Vec.smul (d - k.zmax f) zDir) f := by
  simp only [List.mem_flatten, List.mem_map, movedFaces, List.mem_filter, decide_eq_true_eq]
  constructor
  · rintro ⟨l, ⟨e, ⟨he, hd⟩, rfl⟩, hx⟩
    obtain ⟨f, hf, rfl⟩ := List.mem_map.mp hx
    obtain ⟨hf', rfl⟩ := h.mem_get.mp hf
    exact ⟨f, hf', hd, rfl⟩
  · rintro ⟨f, hf, hd, rfl⟩
    exact ⟨_, ⟨k.zmax f, ⟨(h.mem _).mpr ⟨f, hf, rfl⟩, hd⟩, rfl⟩, List.mem_map.mpr ⟨f, h.mem_get.mpr ⟨hf, rfl⟩, rfl⟩⟩

theorem cqDepthsOps_ok {zDir : Vec} {dm am : FaceMap F} {ad ds : List ℚ} {ops : List F}
    (h : cqDepthsOps k zDir dm am ad ds = .ok ops) :
    ∃ gs : List (List F), ops = gs.flatten ∧ gs.length = ds.length ∧
      ∀ (n : ℕ) (d : ℚ), ds[n]? = some d → ∃ g, gs[n]? = some g ∧ cqDepthOps k zDir dm am ad d (ds.drop (n + 1)) = .ok g := by
  induction ds generalizing ops with
  | nil => cases h; exact ⟨[], rfl, rfl, by simp⟩
  | cons d ds ih =>
    unfold cqDepthsOps at h
    obtain ⟨o, h1, h2⟩ := bind_ok.mp h
    obtain ⟨r, h3, h4⟩ := bind_ok.mp h2
    cases h4
    obtain ⟨gs, rfl, hl, hg⟩ := ih h3
    refine ⟨o :: gs, by simp, by simp [hl], ?_⟩
    intro n e hn
    cases n with
    | zero => cases hn; exact ⟨o, rfl, h1⟩
    | succ n =>
      obtain ⟨g, g1, g2⟩ := hg n e hn
      exact ⟨g, g1, g2⟩

theorem cqBuild_ok {zDir : Vec} {opAreas avoidAreas ops : List F}
    (h : cqBuildPocketOps k zDir opAreas avoidAreas = .ok ops) :
    ∃ dm ds am ad, FaceMapOK k opAreas dm ds ∧ FaceMapOK k avoidAreas am ad ∧ cqDepthsOps k zDir dm am ad ds = .ok ops := by
  unfold cqBuildPocketOps at h
  obtain ⟨⟨dm, ds⟩, h1, h⟩ := bind_ok.mp h
  obtain ⟨⟨am, ad⟩, h2, h⟩ := bind_ok.mp h
  exact ⟨dm, ds, am, ad, generateFaceMap_ok h1, generateFaceMap_ok h2, h⟩

/-- The upward direction in job coordinates. -/
def Vec.upward : Vec := ⟨0, 0, 1⟩

/-- One depth, when faces are moved upward. -/
theorem cqDepthOps_upright {g : FaceGeometry F} (hk : KernelOK k g) {opAreas avoidAreas : List F} {dm am : FaceMap F}
    {ds ad : List ℚ} (h1 : FaceMapOK k opAreas dm ds) (h2 : FaceMapOK k avoidAreas am ad) {n : ℕ} {d : ℚ}
    (hn : ds[n]? = some d) {ops : List F} (h : cqDepthOps k Vec.upward dm am ad d (ds.drop (n + 1)) = .ok ops) :
    (∀ o ∈ ops, k.zmax o = d) ∧
      ((avoidAreas = [] ∨ ∃ a ∈ avoidAreas, d ≤ k.zmax a) → ∀ p, g.OffBorders (opAreas ++ avoidAreas) p →
        ((∃ o ∈ ops, g.covers o p) ↔ WantedCq k g opAreas avoidAreas d p)) := by
  unfold cqDepthOps at h
  obtain ⟨us, h3, h'⟩ := bind_ok.mp h
  clear h
  set L := dm.get d ++ ((ds.drop (n + 1)).map (movedFaces k Vec.upward dm d)).flatten with hL
  have hmem := mem_combined h1 Vec.upward hn
  have hcov : ∀ e f p, g.covers (k.translate (Vec.smul e Vec.upward) f) p ↔ g.covers f p := by
    intro e f p; rw [hk.move]; simp [Vec.smul, Vec.upward]
  have hbor : ∀ e f p, g.border (k.translate (Vec.smul e Vec.upward) f) p ↔ g.border f p := by
    intro e f p; rw [hk.moveBorder]; simp [Vec.smul, Vec.upward]
  have hhei : ∀ f, k.zmax (k.translate (Vec.smul (d - k.zmax f) Vec.upward) f) = d := by
    intro f; rw [hk.moveHeight]; simp [Vec.smul, Vec.upward]
  have hz : ∀ x ∈ L, k.zmax x = d := by
    intro x hx
    rcases (hmem x).mp hx with ⟨-, h⟩ | ⟨f, -, -, rfl⟩
    · exact h
    · exact hhei f
  have huz := hk.combineHeight L us d h3 hz
  have hu : ∀ p, g.OffBorders (opAreas ++ avoidAreas) p →
      ((∃ o ∈ us, g.covers o p) ↔ ∃ f ∈ opAreas, k.zmax f ≤ d ∧ g.covers f p) ∧ g.OffBorders us p := by
    intro p hp
    have hoff : g.OffBorders L p := by
      intro x hx
      rcases (hmem x).mp hx with ⟨h, -⟩ | ⟨f, h, -, rfl⟩
      · exact hp x (List.mem_append_left _ h)
      · rw [hbor]; exact hp f (List.mem_append_left _ h)
    obtain ⟨c1, c2⟩ := hk.combine L us h3 p hoff
    refine ⟨c1.trans ?_, c2⟩
    constructor
    · rintro ⟨x, hx, hc⟩
      rcases (hmem x).mp hx with ⟨h, e⟩ | ⟨f, h, hlt, rfl⟩
      · exact ⟨x, h, le_of_eq e, hc⟩
      · exact ⟨f, h, le_of_lt hlt, (hcov _ _ _).mp hc⟩
    · rintro ⟨f, hf, hle, hc⟩
      rcases eq_or_lt_of_le hle with e | hlt
      · exact ⟨f, (hmem f).mpr (.inl ⟨hf, e⟩), hc⟩
      · exact ⟨_, (hmem _).mpr (.inr ⟨f, hf, hlt, rfl⟩), (hcov _ _ _).mpr hc⟩
  have hadiff : ad = [] ↔ avoidAreas = [] := by
    constructor
    · intro h0
      rw [List.eq_nil_iff_forall_not_mem]
      intro a ha
      have := (h2.mem (k.zmax a)).mpr ⟨a, ha, rfl⟩
      rw [h0] at this; cases this
    · intro h0
      rw [List.eq_nil_iff_forall_not_mem]
      intro a ha
      obtain ⟨f, hf, -⟩ := (h2.mem a).mp ha
      rw [h0] at hf; cases hf
  by_cases ha : ad = []
  · simp only [ha, ne_eq, not_true_eq_false, if_false] at h'
    cases h'
    refine ⟨huz, fun _ p hp => ?_⟩
    rw [(hu p hp).1, WantedCq, hadiff.mp ha]
    simp
  · simp only [ha, ne_eq, not_false_eq_true, if_true] at h'
    obtain ⟨cuts, h4, h5⟩ := bind_ok.mp h'
    cases h5
    set A := ((ad.filter (fun a => decide (d ≤ a))).map (movedFaces k Vec.upward am d)).flatten with hA
    have hmA := mem_active h2 Vec.upward d
    have hAz : ∀ x ∈ A, k.zmax x = d := by
      intro x hx
      obtain ⟨f, -, -, rfl⟩ := (hmA x).mp hx
      exact hhei f
    refine ⟨?_, ?_⟩
    · intro o ho
      obtain ⟨l, hl, ho⟩ := List.mem_flatten.mp ho
      obtain ⟨u, hu', hcut⟩ := mapE_mem h4 hl
      exact hk.cutHeight u A l d hcut (huz u hu') hAz o ho
    · intro hact p hp
      have hAne : A ≠ [] := by
        rcases hact with h0 | ⟨a, ha', hd⟩
        · exact absurd (hadiff.mpr h0) ha
        · exact List.ne_nil_of_mem ((hmA _).mpr ⟨a, ha', hd, rfl⟩)
      have hAoff : g.OffBorders A p := by
        intro x hx
        obtain ⟨f, hf, -, rfl⟩ := (hmA x).mp hx
        rw [hbor]; exact hp f (List.mem_append_right _ hf)
      have hno : (∀ c ∈ A, ¬ g.covers c p) ↔ ∀ a ∈ avoidAreas, d ≤ k.zmax a → ¬ g.covers a p := by
        constructor
        · intro h a ha' hd hc
          exact h _ ((hmA _).mpr ⟨a, ha', hd, rfl⟩) ((hcov _ _ _).mpr hc)
        · intro h c hc
          obtain ⟨f, hf, hd, rfl⟩ := (hmA c).mp hc
          rw [hcov]; exact h f hf hd
      rw [WantedCq, ← (hu p hp).1, ← hno]
      have hoffu := (hu p hp).2
      have hcutp : ∀ u ∈ us, ∀ l, k.cut u A = .ok l → ((∃ o ∈ l, g.covers o p) ↔ g.covers u p ∧ ∀ c ∈ A, ¬ g.covers c p) := by
        intro u hu' l hl
        refine hk.cut u A l hAne hl p ?_
        intro x hx
        rcases List.mem_cons.mp hx with rfl | hx
        · exact hoffu x hu'
        · exact hAoff x hx
      constructor
      · rintro ⟨o, ho, hc⟩
        obtain ⟨l, hl, ho⟩ := List.mem_flatten.mp ho
        obtain ⟨u, hu', hcut⟩ := mapE_mem h4 hl
        obtain ⟨c1, c2⟩ := (hcutp u hu' l hcut).mp ⟨o, ho, hc⟩
        exact ⟨⟨u, hu', c1⟩, c2⟩
      · rintro ⟨⟨u, hu', c1⟩, c2⟩
        obtain ⟨l, hl, hcut⟩ := forall₂_mem_left (mapE_ok.mp h4) hu'
        obtain ⟨o, ho, hc⟩ := (hcutp u hu' l hcut).mpr ⟨c1, c2⟩
        exact ⟨o, List.mem_flatten.mpr ⟨l, hl, ho⟩, hc⟩

end

end CQ
