import Verif.Spec.Region
import Verif.Proofs.Except
import Verif.Proofs.Geometry
import Verif.Proofs.Routers

/-! # Lemmas about regions and result trees -/

namespace CQ

theorem nodeRegion_iff {p : Pt} {n : PolyNode} :
    NodeRegion p n ↔ Inside n.contour p ∧ ∀ h ∈ n.childs, ¬ NodeRegion p h := by
  cases n with
  | node c cs => rw [NodeRegion]; rfl

theorem crosses_point (p a : Pt) : crosses p (a, a) = false := by simp [crosses]

/-- The closed form of an outline bounds the same region and is the same curve. -/
theorem closePath_spec {c q : List Pt} (h : closePath c = .ok q) :
    IsClosedPath q ∧ (∀ p, Inside q p ↔ Inside c p) ∧ (∀ p, OnOutline q p ↔ OnOutline c p) ∧
      (q = c ∨ ∃ a, c.head? = some a ∧ c.getLast? ≠ some a ∧ q = c ++ [a]) := by
  unfold closePath at h
  cases c with
  | nil => simp at h
  | cons a c =>
    rw [List.head?_cons, List.getLast?_eq_some_getLast (by simp)] at h
    simp only [Except.ok.injEq] at h
    by_cases hab : a = (a :: c).getLast (by simp)
    · rw [if_neg (by simpa using hab)] at h
      subst h
      refine ⟨⟨by simp, ?_⟩, fun _ => Iff.rfl, fun _ => Iff.rfl, Or.inl rfl⟩
      rw [List.head?_cons, List.getLast?_eq_some_getLast (by simp), ← hab]
    · rw [if_pos hab] at h
      subst h
      have hseg : segments (closedOutline (a :: c ++ [a])) = segments (closedOutline (a :: c)) ++ [(a, a)] := by
        simp only [closedOutline, List.cons_append, List.head?_cons, Option.toList_some]
        rw [show a :: (c ++ [a] ++ [a]) = (a :: c) ++ a :: [a] by simp, segments_append]
        simp [segments]
      refine ⟨⟨by simp, by rw [List.getLast?_append]; simp⟩, ?_, ?_, Or.inr ⟨a, rfl, by
        rw [List.getLast?_eq_some_getLast (by simp)]
        intro h; exact hab (Option.some.inj h).symm, rfl⟩⟩
      · intro p
        unfold Inside crossings
        rw [hseg, List.countP_append]
        simp [crosses_point]
      · intro p
        unfold OnOutline OnPath
        rw [hseg]
        constructor
        · rintro (h | ⟨s, hs, h⟩)
          · left
            simp [closedOutline] at h ⊢
            tauto
          · rcases List.mem_append.mp hs with hs | hs
            · exact Or.inr ⟨s, hs, h⟩
            · rw [List.mem_singleton] at hs
              subst hs
              left
              obtain ⟨t, -, -, rfl⟩ := h
              have : a.lerp a t = a := by ext <;> simp [Pt.lerp]
              rw [this]; simp [closedOutline]
        · rintro (h | ⟨s, hs, h⟩)
          · left
            simp [closedOutline] at h ⊢
            tauto
          · exact Or.inr ⟨s, List.mem_append_left _ hs, h⟩

theorem closePath_total {c : List Pt} (h : c ≠ []) : ∃ q, closePath c = .ok q := by
  unfold closePath
  rw [List.head?_eq_some_head h, List.getLast?_eq_some_getLast h]
  exact ⟨_, rfl⟩

theorem nodeToPolyFace_ok {d : ℚ} {n : PolyNode} {f : PathFace} (h : nodeToPolyFace d n = .ok f) :
    closePath n.contour = .ok f.outer ∧
      List.Forall₂ (fun (c : PolyNode) i => closePath c.contour = .ok i) n.childs f.inners ∧ f.depth = d := by
  unfold nodeToPolyFace at h
  obtain ⟨o, h1, h⟩ := bind_ok.mp h
  obtain ⟨is, h2, h⟩ := bind_ok.mp h
  cases h
  exact ⟨h1, mapE_ok.mp h2, rfl⟩

theorem faceRegion_node {d : ℚ} {n : PolyNode} {f : PathFace} (h : nodeToPolyFace d n = .ok f) (p : Pt) :
    FaceRegion f p ↔ Inside n.contour p ∧ ∀ c ∈ n.childs, ¬ Inside c.contour p := by
  obtain ⟨h1, h2, -⟩ := nodeToPolyFace_ok h
  unfold FaceRegion
  rw [(closePath_spec h1).2.1 p]
  refine and_congr_right fun _ => ?_
  constructor
  · intro hi c hc hin
    obtain ⟨i, hi', hci⟩ := forall₂_mem_left h2 hc
    exact hi i hi' (((closePath_spec hci).2.1 p).mpr hin)
  · intro hc i hi hin
    obtain ⟨c, hc', hci⟩ := forall₂_mem_right h2 hi
    exact hc c hc' (((closePath_spec hci).2.1 p).mp hin)

/-- The faces made from a tree clear exactly what is inside a top-level contour and in none of its children's
contours. -/
theorem polyTree_region {tree : List PolyNode} {d : ℚ} {faces : List PathFace}
    (h : polyTreeToPolyFaces tree d = .ok faces) (p : Pt) :
    (∃ f ∈ faces, FaceRegion f p) ↔ ∃ n ∈ tree, Inside n.contour p ∧ ∀ c ∈ n.childs, ¬ Inside c.contour p := by
  constructor
  · rintro ⟨f, hf, hr⟩
    obtain ⟨n, hn, h1⟩ := mapE_mem h hf
    exact ⟨n, hn, (faceRegion_node h1 p).mp hr⟩
  · rintro ⟨n, hn, hr⟩
    obtain ⟨f, hf, h1⟩ := mapE_mem' h hn
    exact ⟨f, hf, (faceRegion_node h1 p).mpr hr⟩

/-- Whatever the faces clear is in the region of the tree. -/
theorem polyTree_sound {tree : List PolyNode} {d : ℚ} {faces : List PathFace}
    (h : polyTreeToPolyFaces tree d = .ok faces) {p : Pt} (hp : ∃ f ∈ faces, FaceRegion f p) : TreeRegion tree p := by
  obtain ⟨n, hn, h1, h2⟩ := (polyTree_region h p).mp hp
  refine ⟨n, hn, nodeRegion_iff.mpr ⟨h1, fun c hc hr => h2 c hc (nodeRegion_iff.mp hr).1⟩⟩

theorem polyTree_depth {tree : List PolyNode} {d : ℚ} {faces : List PathFace}
    (h : polyTreeToPolyFaces tree d = .ok faces) {f : PathFace} (hf : f ∈ faces) : f.depth = d := by
  obtain ⟨n, -, h1⟩ := mapE_mem h hf
  exact (nodeToPolyFace_ok h1).2.2

theorem insideCount_pos {paths : List (List Pt)} {p : Pt} : 0 < insideCount paths p ↔ ∃ s ∈ paths, Inside s p := by
  unfold insideCount
  rw [List.countP_pos_iff]
  simp

theorem insideCount_odd {paths : List (List Pt)} {p : Pt} (h : insideCount paths p ≤ 1) :
    insideCount paths p % 2 = 1 ↔ ∃ s ∈ paths, Inside s p := by
  rw [← insideCount_pos]
  omega

theorem insideCount_odd_mem {paths : List (List Pt)} {p : Pt} (h : insideCount paths p % 2 = 1) :
    ∃ s ∈ paths, Inside s p := by
  rw [← insideCount_pos]; omega

end CQ
