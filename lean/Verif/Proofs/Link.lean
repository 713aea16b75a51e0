import Verif.Proofs.ZigZag

/-! # Lemmas: the order of linked points along a segment -/

namespace CQ

theorem foldE_append {α β : Type} {f : β → α → Except Err β} : ∀ {l l' : List α} {b b' : β}, foldE f b l = .ok b' →
    foldE f b (l ++ l') = foldE f b' l' := by
  intro l
  induction l with
  | nil => intro l' b b' h; cases h; rfl
  | cons a as ih =>
    intro l' b b' h
    unfold foldE at h
    obtain ⟨b1, h1, h2⟩ := bind_ok.mp h
    simp only [List.cons_append, foldE, h1, ok_bind]
    exact ih h2

theorem idxOf_prefix {A B : List Pt} {p : Pt} (h : p ∉ A) : (A ++ p :: B).idxOf p = A.length := by
  rw [List.idxOf_append_of_notMem h]; simp

theorem pyIndex_prefix {A B : List Pt} {p : Pt} (h : p ∉ A) : pyIndex (A ++ p :: B) p = .ok A.length :=
  pyIndex_ok.mpr ⟨by simp, (idxOf_prefix h).symm⟩

/-- Inserting a new point into a sorted list where sorting puts it gives the sorted list. -/
theorem insert_sorted (r : Pt → Pt → Prop) [DecidableRel r] [Std.Total r] [IsTrans Pt r] {M : List Pt} {q : Pt}
    (hM : M.Pairwise r) (hq : q ∉ M) :
    ∃ S1 S2, (M ++ [q]).insertionSort r = S1 ++ q :: S2 ∧ q ∉ S1 ∧ M = S1 ++ S2 := by
  have hp := List.perm_insertionSort r (M ++ [q])
  have hsub : M.Sublist ((M ++ [q]).insertionSort r) := List.sublist_insertionSort hM (List.sublist_append_left _ _)
  have hmem : q ∈ (M ++ [q]).insertionSort r := hp.mem_iff.mpr (by simp)
  obtain ⟨S1, S2, hs, hq1⟩ := List.eq_append_cons_of_mem hmem
  refine ⟨S1, S2, hs, hq1, ?_⟩
  have he := hsub.erase q
  rw [List.erase_of_not_mem hq, hs, List.erase_append_right _ hq1, List.erase_cons_head] at he
  refine he.eq_of_length ?_
  have hl := hp.length_eq
  rw [hs] at hl
  simp at hl ⊢
  omega

instance distTotal (a : Pt) : Std.Total (fun p q : Pt => dist2 p a ≤ dist2 q a) := ⟨fun _ _ => le_total _ _⟩

instance distTrans (a : Pt) : IsTrans Pt (fun p q : Pt => dist2 p a ≤ dist2 q a) := ⟨fun _ _ _ => le_trans⟩

theorem sortedFrom_iff {a : Pt} {l : List Pt} : SortedFrom a l ↔ l.Pairwise (fun p q => dist2 p a ≤ dist2 q a) := by
  unfold SortedFrom
  simp only [dist2_eq, sqDist_comm _ a]

/-- Linking a point to a segment some points of which are linked already. -/
theorem linkPoint_sorted {lp : LinkedPolygon} {A M B : List Pt} {s e q : Pt} (hpoly : lp.polygon = A ++ s :: (M ++ e :: B))
    (hs : s ∉ A) (he : e ∉ A ++ s :: M) (hq : q ∉ lp.linked) (hqM : q ∉ M) (hM : SortedFrom s M) :
    ∃ M', lp.linkPoint q s e = .ok { lp with polygon := A ++ s :: (M' ++ e :: B), linked := lp.linked ++ [q] } ∧
      M'.Perm (q :: M) ∧ SortedFrom s M' := by
  have hi : pyIndex lp.polygon s = .ok A.length := by rw [hpoly]; exact pyIndex_prefix hs
  have hj : pyIndex lp.polygon e = .ok (A.length + 1 + M.length) := by
    rw [hpoly, show A ++ s :: (M ++ e :: B) = (A ++ s :: M) ++ e :: B by simp, pyIndex_prefix he]
    simp only [List.length_append, List.length_cons]
    congr 1; omega
  unfold LinkedPolygon.linkPoint
  simp only [if_neg hq, hi, hj, ok_bind]
  have hins : ∀ S1 S2, M = S1 ++ S2 → pyInsert lp.polygon (A.length + 1 + S1.length) q =
      A ++ s :: ((S1 ++ q :: S2) ++ e :: B) := by
    intro S1 S2 h
    unfold pyInsert
    have e1 : lp.polygon = (A ++ s :: S1) ++ (S2 ++ e :: B) := by rw [hpoly, h]; simp
    have e2 : A.length + 1 + S1.length = (A ++ s :: S1).length := by simp; omega
    rw [e1, e2, List.take_left, List.drop_left]
    simp
  by_cases h0 : A.length + 1 = A.length + 1 + M.length
  · have hM0 : M = [] := List.length_eq_zero_iff.mp (by omega)
    subst hM0
    refine ⟨[q], ?_, .refl _, List.pairwise_singleton _ _⟩
    rw [if_pos h0]
    have := hins [] [] rfl
    simp only [List.length_nil, Nat.add_zero, List.nil_append] at this
    rw [this]
  · rw [if_neg h0]
    have hr : (lp.polygon.drop (A.length + 1)).take (A.length + 1 + M.length - (A.length + 1)) = M := by
      have e1 : lp.polygon = (A ++ [s]) ++ (M ++ e :: B) := by rw [hpoly]; simp
      have e2 : A.length + 1 = (A ++ [s]).length := by simp
      rw [show A.length + 1 + M.length - (A.length + 1) = M.length by omega, e1, e2, List.drop_left, List.take_left]
    rw [hr]
    obtain ⟨S1, S2, h1, h2, h3⟩ := insert_sorted (fun p q : Pt => dist2 p s ≤ dist2 q s) (sortedFrom_iff.mp hM) hqM
    simp only [h1, pyIndex_prefix h2, ok_bind]
    refine ⟨S1 ++ q :: S2, ?_, ?_, ?_⟩
    · rw [hins S1 S2 h3]
    · rw [h3]; exact List.perm_middle
    · rw [sortedFrom_iff, ← h1]
      exact List.pairwise_insertionSort _ _

theorem near_iff {v w q : Pt} (h : v ≠ w) :
    ∃ d, distToSegmentSquared q v w = .ok d ∧ (d.1 < 1 / 10000000 ↔ NearSegment (v, w) q) := by
  obtain ⟨t, t0, t1, hd, hmin⟩ := distToSegment_spec (p := q) h
  refine ⟨_, hd, ?_⟩
  constructor
  · intro hlt
    exact ⟨_, ⟨t, t0, t1, rfl⟩, hlt⟩
  · rintro ⟨c, hc, hlt⟩
    exact lt_of_le_of_lt (hmin c hc) hlt

/-- Linking points to one segment. -/
theorem linkSegment_sorted {k : ℕ} {A B : List Pt} {v w : Pt} (hvw : v ≠ w) (hv : v ∉ A) (hwA : w ∉ A) :
    ∀ (l : List Pt) (s : LinkState) (M : List Pt), s.lp.polygon = A ++ v :: (M ++ w :: B) → w ∉ M → SortedFrom v M →
      l.Nodup → (∀ q ∈ l, q ∈ s.remaining) → s.remaining.Nodup →
      (∀ q ∈ s.remaining, q ∉ s.lp.linked ∧ q ∉ M ∧ q ≠ w) →
      ∃ s' M' new, foldE (linkStep k v w) s l = .ok s' ∧ s'.lp.polygon = A ++ v :: (M' ++ w :: B) ∧
        s'.lp.linked = s.lp.linked ++ new ∧ s'.lp.avail = s.lp.avail ∧ M'.Perm (new ++ M) ∧ SortedFrom v M' ∧
        s.remaining.Perm (new ++ s'.remaining) ∧ (∀ q ∈ new, NearSegment (v, w) q) ∧
        ∀ q ∈ l, q ∈ s'.remaining → ¬ NearSegment (v, w) q := by
  intro l
  induction l with
  | nil =>
    intro s M hp hw hM _ _ _ _
    exact ⟨s, M, [], rfl, hp, by simp, rfl, .refl _, hM, .refl _, by simp, by simp⟩
  | cons q l ih =>
    intro s M hp hw hM hl hsub hrem hq
    have hql := List.nodup_cons.mp hl
    obtain ⟨d, hd, hnear⟩ := near_iff (q := q) hvw
    by_cases hn : d.1 < 1 / 10000000
    · have hqr := hsub q List.mem_cons_self
      obtain ⟨h1, h2, h3⟩ := hq q hqr
      have hwn : w ∉ A ++ v :: M := by
        simp only [List.mem_append, List.mem_cons, not_or]
        exact ⟨hwA, fun h => hvw h.symm, hw⟩
      obtain ⟨M1, hl1, hp1, hs1⟩ := linkPoint_sorted hp hv hwn h1 h2 hM
      have hstep : linkStep k v w s q = .ok ⟨s.remaining.erase q,
          { s.lp with polygon := A ++ v :: (M1 ++ w :: B), linked := s.lp.linked ++ [q] }, (q, k) :: s.owner⟩ := by
        unfold linkStep
        simp only [hd, ok_bind, if_pos hn, pyRemove_ok.mpr ⟨hqr, rfl⟩, hl1]
      obtain ⟨s', M', new, g1, g2, g3, g4, g5, g6, g7, g8, g9⟩ := ih ⟨s.remaining.erase q,
          { s.lp with polygon := A ++ v :: (M1 ++ w :: B), linked := s.lp.linked ++ [q] }, (q, k) :: s.owner⟩ M1 rfl
        (by rw [hp1.mem_iff, List.mem_cons, not_or]; exact ⟨fun h => h3 h.symm, hw⟩) hs1 hql.2
        (fun x hx => (hrem.mem_erase_iff).mpr ⟨fun h => hql.1 (h ▸ hx), hsub x (List.mem_cons_of_mem _ hx)⟩)
        (hrem.erase _) (by
          intro x hx
          obtain ⟨hxq, hxr⟩ := hrem.mem_erase_iff.mp hx
          obtain ⟨y1, y2, y3⟩ := hq x hxr
          refine ⟨?_, ?_, y3⟩
          · simp only [List.mem_append, List.mem_singleton, not_or]; exact ⟨y1, hxq⟩
          · rw [hp1.mem_iff, List.mem_cons, not_or]; exact ⟨hxq, y2⟩)
      refine ⟨s', M', q :: new, ?_, g2, by simp [g3], g4, ?_, g6, ?_, ?_, ?_⟩
      · simp only [foldE, hstep, ok_bind, g1]
      · refine g5.trans ((hp1.append_left new).trans ?_)
        exact List.perm_middle
      · exact (List.perm_cons_erase hqr).trans (g7.cons q)
      · intro x hx
        rcases List.mem_cons.mp hx with rfl | hx
        · exact hnear.mp hn
        · exact g8 x hx
      · intro x hx hxr
        rcases List.mem_cons.mp hx with rfl | hx
        · exfalso
          have : x ∈ s.remaining.erase x := g7.mem_iff.mpr (List.mem_append_right _ hxr)
          exact (hrem.mem_erase_iff.mp this).1 rfl
        · exact g9 x hx hxr
    · have hstep : linkStep k v w s q = .ok s := by
        unfold linkStep
        simp only [hd, ok_bind, if_neg hn]
      obtain ⟨s', M', new, g1, g2, g3, g4, g5, g6, g7, g8, g9⟩ := ih s M hp hw hM hql.2
        (fun x hx => hsub x (List.mem_cons_of_mem _ hx)) hrem hq
      refine ⟨s', M', new, ?_, g2, g3, g4, g5, g6, g7, g8, ?_⟩
      · simp only [foldE, hstep, ok_bind, g1]
      · intro x hx hxr
        rcases List.mem_cons.mp hx with rfl | hx
        · exact fun h => hn (hnear.mpr h)
        · exact g9 x hx hxr

/-- Linking points to a polyline with different vertices. -/
theorem linkPolyline_sorted {k : ℕ} {B : List Pt} :
    ∀ (vs : List Pt) (v : Pt) (A : List Pt) (s : LinkState), s.lp.polygon = A ++ (v :: vs ++ B) → (v :: vs).Nodup →
      (∀ x ∈ v :: vs, x ∉ A) → s.remaining.Nodup → (∀ q ∈ s.remaining, q ∉ s.lp.linked ∧ q ∉ v :: vs) →
      ∃ s' blocks, foldE (linkSegment k) s (segments (v :: vs)) = .ok s' ∧
        s'.lp.polygon = A ++ (weave (v :: vs) blocks ++ B) ∧
        (s'.lp.linked).Perm (s.lp.linked ++ blocks.flatten) ∧ s'.lp.avail = s.lp.avail ∧
        List.Forall₂ (fun seg b => SortedFrom seg.1 b ∧ ∀ q ∈ b, NearSegment seg q) (segments (v :: vs)) blocks ∧
        s.remaining.Perm (blocks.flatten ++ s'.remaining) ∧
        ∀ seg ∈ segments (v :: vs), ∀ q ∈ s'.remaining, ¬ NearSegment seg q := by
  intro vs
  induction vs with
  | nil =>
    intro v A s hp _ _ _ _
    exact ⟨s, [], rfl, hp, by simp, rfl, .nil, .refl _, by simp [segments]⟩
  | cons w vs ih =>
    intro v A s hp hn hA hrem hq
    have hn' := List.nodup_cons.mp hn
    have hvw : v ≠ w := fun h => hn'.1 (h ▸ List.mem_cons_self)
    obtain ⟨s1, M, new, g1, g2, g3, g4, g5, g6, g7, g8, g9⟩ :=
      linkSegment_sorted (k := k) (B := vs ++ B) hvw (hA v List.mem_cons_self)
        (hA w (List.mem_cons_of_mem _ List.mem_cons_self)) s.remaining s [] (by simpa using hp) (by simp) List.Pairwise.nil
        hrem (fun _ h => h) hrem (fun q h => ⟨(hq q h).1, by simp, fun h' => (hq q h).2 (by simp [h'])⟩)
    rw [List.append_nil] at g5
    have hnr : (new ++ s1.remaining).Nodup := g7.nodup_iff.mp hrem
    have hnr' := List.nodup_append.mp hnr
    have hin : ∀ q, q ∈ new ∨ q ∈ s1.remaining → q ∈ s.remaining := fun q h =>
      g7.mem_iff.mpr (List.mem_append.mpr h)
    obtain ⟨s2, bs, f1, f2, f4, f5, f6, f7, f8⟩ := ih w (A ++ v :: M) s1 (by rw [g2]; simp) hn'.2 (by
        intro x hx
        simp only [List.mem_append, List.mem_cons, not_or]
        refine ⟨hA x (List.mem_cons_of_mem _ hx), fun h => hn'.1 (h ▸ hx), fun h => ?_⟩
        have := (hq x (hin x (.inl (g5.mem_iff.mp h)))).2
        exact this (List.mem_cons_of_mem _ hx)) hnr'.2.1 (by
        intro q h
        have h2 := hq q (hin q (.inr h))
        refine ⟨?_, fun h' => h2.2 (List.mem_cons_of_mem _ h')⟩
        rw [g3, List.mem_append, not_or]
        exact ⟨h2.1, fun h' => hnr'.2.2 _ h' _ h rfl⟩)
    refine ⟨s2, M :: bs, ?_, ?_, ?_, f5.trans g4, .cons ⟨g6, ?_⟩ f6, ?_, ?_⟩
    · simp only [segments, foldE]
      simp only [linkSegment, g1, ok_bind]
      exact f1
    · rw [f2]; simp [weave]
    · refine f4.trans ?_
      rw [g3]
      simp only [List.flatten_cons, List.append_assoc]
      exact (g5.symm.append_right _).append_left _
    · intro q hqM
      exact g8 q (g5.mem_iff.mp hqM)
    · refine g7.trans ?_
      simp only [List.flatten_cons, List.append_assoc]
      exact g5.symm.append f7
    · intro seg hseg q hqr
      simp only [segments, List.mem_cons] at hseg
      rcases hseg with rfl | hseg
      · have h1 : q ∈ s1.remaining := f7.mem_iff.mpr (List.mem_append_right _ hqr)
        exact g9 q (hin q (.inr h1)) h1
      · exact f8 seg hseg q hqr

end CQ
