import Verif.Proofs.PocketCq
import Verif.Props.PocketFill
import Verif.Props.ProfilePath
import Verif.Props.Rapids

/-! # C83-C85: pockets made with the CAD kernel (`engine="cq"`) -/

namespace CQ

/-! ### C83: the regions -/

/-- C83.  A face (to clear or to avoid) above the job plane is refused. -/
theorem C83_refused {F : Type} (k : FaceKernelCq F) (zDir : Vec) (opAreas avoidAreas : List F)
    (h : ∃ f ∈ opAreas ++ avoidAreas, 0 < k.zmax f) :
    cqBuildPocketOps k zDir opAreas avoidAreas = .error .valueError := by
  obtain ⟨f, hf, hd⟩ := h
  unfold cqBuildPocketOps
  by_cases ho : ∃ g ∈ opAreas, 0 < k.zmax g
  · unfold generateFaceMap
    rw [faceMapFrom_error ho]
    rfl
  · push Not at ho
    obtain ⟨m, hm⟩ := faceMapFrom_total (m := []) ho
    have ha : ∃ g ∈ avoidAreas, 0 < k.zmax g := by
      rcases List.mem_append.mp hf with hf | hf
      · exact absurd hd (not_lt.mpr (ho f hf))
      · exact ⟨f, hf, hd⟩
    unfold generateFaceMap
    rw [faceMapFrom_error ha, hm]
    rfl

/-- C83 (as far as it holds, see the violations below).  If the plane of the job is parallel to the world's XY plane and
faces upward, the regions come in groups, one for each distinct depth of the areas, from the shallowest to the deepest, and
the regions of depth `d` cover what is to be cleared there: all areas at this depth or deeper without the avoid areas that
reach it (for points not on a border, and if there are no avoid areas or one that reaches the depth). -/
theorem C83_regions_partial {F : Type} {k : FaceKernelCq F} {g : FaceGeometry F} (hk : KernelOK k g)
    {opAreas avoidAreas ops : List F} (h : cqBuildPocketOps k ⟨0, 0, 1⟩ opAreas avoidAreas = .ok ops) :
    (∀ f ∈ opAreas ++ avoidAreas, k.zmax f ≤ 0) ∧
    ∃ groups : List (ℚ × List F), ops = (groups.map Prod.snd).flatten ∧
      (groups.map Prod.fst).Pairwise (fun a b => b < a) ∧
      (∀ d, d ∈ groups.map Prod.fst ↔ ∃ f ∈ opAreas, k.zmax f = d) ∧
      ∀ x ∈ groups, (∀ o ∈ x.2, k.zmax o = x.1) ∧
        ((avoidAreas = [] ∨ ∃ a ∈ avoidAreas, x.1 ≤ k.zmax a) → ∀ p, g.OffBorders (opAreas ++ avoidAreas) p →
          ((∃ o ∈ x.2, g.covers o p) ↔ WantedCq k g opAreas avoidAreas x.1 p)) := by
  obtain ⟨dm, ds, am, ad, h1, h2, h3⟩ := cqBuild_ok h
  obtain ⟨gs, rfl, hl, hg⟩ := cqDepthsOps_ok h3
  refine ⟨?_, ds.zip gs, ?_, ?_, ?_, ?_⟩
  · intro f hf
    rcases List.mem_append.mp hf with hf | hf
    · exact h1.below f hf
    · exact h2.below f hf
  · rw [List.map_snd_zip (by omega)]
  · rw [List.map_fst_zip (by omega)]
    exact h1.sorted
  · intro d
    rw [List.map_fst_zip (by omega)]
    exact h1.mem d
  · rintro ⟨d, gr⟩ hm
    obtain ⟨n, hn⟩ := List.mem_iff_getElem?.mp hm
    rw [List.getElem?_zip_eq_some] at hn
    obtain ⟨g', g1, g2⟩ := hg n d hn.1
    rw [hn.2] at g1
    cases g1
    exact cqDepthOps_upright hk h1 h2 hn.1 g2

/-- A face given by the points it covers, and its height. -/
structure PointFace where
  has : Pt → Bool
  z : ℚ

/-- A kernel for faces given by their points (without wires). -/
def pointKernel : FaceKernelCq PointFace where
  cad := flatCad
  outerWire _ := []
  innerWires _ := []
  zmax f := f.z
  translate v f := ⟨fun p => f.has ⟨p.x - v.x, p.y - v.y⟩, f.z + v.z⟩
  combine fs := .ok fs
  cut f clips := if clips = [] then .error .stdFail else .ok [⟨fun p => f.has p && !clips.any (fun c => c.has p), f.z⟩]
  make _ _ := .error .stdFail

def pointGeometry : FaceGeometry PointFace := ⟨fun f p => f.has p = true, fun _ _ => False⟩

instance (f : PointFace) (p : Pt) : Decidable (pointGeometry.covers f p) := inferInstanceAs (Decidable (f.has p = true))

theorem pointKernel_ok : KernelOK pointKernel pointGeometry where
  move _ _ _ := Iff.rfl
  moveBorder _ _ _ := Iff.rfl
  moveHeight _ _ := rfl
  combine fs gs h p hp := by cases h; exact ⟨Iff.rfl, hp⟩
  combineHeight fs gs d h hz := by cases h; exact hz
  cut f clips gs hc h p _ := by
    simp only [pointKernel, if_neg hc] at h
    cases h
    simp [pointGeometry]
  cutHeight f clips gs d h hf hc := by
    simp only [pointKernel] at h
    split at h
    · cases h
    · cases h
      intro o ho
      rw [List.mem_singleton] at ho
      subst ho; exact hf

/-- The square with the given corner and side. -/
def pointSquare (x y s z : ℚ) : PointFace :=
  ⟨fun p => decide (x < p.x ∧ p.x < x + s ∧ y < p.y ∧ p.y < y + s), z⟩

/-- Two areas at different depths and an avoid area, on an upright job: the hypotheses are met, and the regions are not
trivial. -/
example : KernelOK pointKernel pointGeometry ∧
    ∃ ops, cqBuildPocketOps pointKernel ⟨0, 0, 1⟩ [pointSquare 0 0 9 (-1), pointSquare 20 0 9 (-3)] [pointSquare 0 0 2 0] = .ok ops ∧
      (∃ o ∈ ops, o.z = -1 ∧ o.has ⟨21, 1⟩) ∧ (∃ o ∈ ops, o.z = -3 ∧ o.has ⟨21, 1⟩) ∧ (∃ o ∈ ops, o.has ⟨3, 1⟩) ∧
      ¬ ∃ o ∈ ops, o.has ⟨1, 1⟩ := by
  refine ⟨pointKernel_ok, _, rfl, ?_⟩
  decide +kernel

/-- C83 does not hold on other job planes: the faces are in job coordinates, but are moved between the depths along the
plane's normal in **world** coordinates.  On the YZ plane (normal along the world's X) with two areas, a region is cleared
that is in neither area, and the deeper area is not cleared at the depth of the shallower one. -/
theorem C83_violated : ∃ (areas ops : List PointFace), KernelOK pointKernel pointGeometry ∧
    cqBuildPocketOps pointKernel ⟨1, 0, 0⟩ areas [] = .ok ops ∧
    (∃ p, (∃ o ∈ ops, pointGeometry.covers o p) ∧ ∀ f ∈ areas, ¬ pointGeometry.covers f p) ∧
    ∃ p, WantedCq pointKernel pointGeometry areas [] (-1) p ∧ ∀ o ∈ ops, pointKernel.zmax o = -1 → ¬ pointGeometry.covers o p := by
  refine ⟨[pointSquare 0 0 1 (-1), pointSquare 10 10 1 (-3)], _, pointKernel_ok, rfl, ⟨⟨25 / 2, 21 / 2⟩, ?_⟩, ⟨21 / 2, 21 / 2⟩, ?_⟩
  · decide +kernel
  · unfold WantedCq
    decide +kernel

/-- Avoid areas that are all deeper than some area make the call fail, if the kernel refuses to cut with nothing (as
OpenCASCADE does) and combining faces gives at least one: `depth_op.cut()` is called without arguments. -/
theorem C83_violated_deep_avoid {F : Type} (k : FaceKernelCq F) (zDir : Vec) (hcut : ∀ f, k.cut f [] = .error .stdFail)
    (hcomb : ∀ fs gs, fs ≠ [] → k.combine fs = .ok gs → gs ≠ []) (opAreas avoidAreas : List F) (hne : avoidAreas ≠ [])
    (hdeep : ∃ f ∈ opAreas, ∀ a ∈ avoidAreas, k.zmax a < k.zmax f) (ops : List F) :
    cqBuildPocketOps k zDir opAreas avoidAreas ≠ .ok ops := by
  intro h
  obtain ⟨dm, ds, am, ad, h1, h2, h3⟩ := cqBuild_ok h
  obtain ⟨gs, rfl, hl, hg⟩ := cqDepthsOps_ok h3
  obtain ⟨f, hf, hfa⟩ := hdeep
  obtain ⟨n, hn⟩ := List.mem_iff_getElem?.mp ((h1.mem (k.zmax f)).mpr ⟨f, hf, rfl⟩)
  obtain ⟨grp, -, hgrp⟩ := hg n _ hn
  unfold cqDepthOps at hgrp
  obtain ⟨us, hu, hrest⟩ := bind_ok.mp hgrp
  have had : ad ≠ [] := by
    obtain ⟨a, ha⟩ := List.exists_mem_of_ne_nil _ hne
    exact List.ne_nil_of_mem ((h2.mem _).mpr ⟨a, ha, rfl⟩)
  have hnone : ad.filter (fun a => decide (k.zmax f ≤ a)) = [] := by
    rw [List.filter_eq_nil_iff]
    intro a ha
    obtain ⟨x, hx, rfl⟩ := (h2.mem a).mp ha
    simpa using hfa x hx
  simp only [if_pos had, hnone, List.map_nil, List.flatten_nil] at hrest
  obtain ⟨cuts, hc, -⟩ := bind_ok.mp hrest
  have hus := hcomb _ _ (List.ne_nil_of_mem ((mem_combined h1 zDir hn f).mpr (.inl ⟨hf, rfl⟩))) hu
  obtain ⟨u, hu'⟩ := List.exists_mem_of_ne_nil _ hus
  obtain ⟨l, -, hl'⟩ := forall₂_mem_left (mapE_ok.mp hc) hu'
  rw [hcut] at hl'
  cases hl'

example (ops : List PointFace) :
    cqBuildPocketOps pointKernel ⟨0, 0, 1⟩ [pointSquare 0 0 9 (-1)] [pointSquare 0 0 2 (-2)] ≠ .ok ops :=
  C83_violated_deep_avoid _ _ (fun _ => rfl) (fun fs gs h e => by cases e; exact h) _ _ (by simp)
    ⟨_, List.mem_singleton.mpr rfl, by simp [pointKernel, pointSquare]⟩ _

end CQ
