import Verif.Model.Show
import Verif.Props.Visualize
import Verif.Proofs.Decimal

/-! # C117: every operation gets its own entry in the viewer -/

namespace CQ

/-- The drawing in a picture, without colours. -/
def Picture.drawing : Picture → List Drawn
  | .group shapes => shapes.map Prod.fst
  | .edges shapes => shapes

/-- The three axes of a job plane, of length 1. -/
def planeAxes (top : Frame) : List Drawn :=
  [.line top.origin (top.toWorld ⟨1, 0, 0⟩), .line top.origin (top.toWorld ⟨0, 1, 0⟩), .line top.origin (top.toWorld ⟨0, 0, 1⟩)]

/-- Names of entries with different numbers differ, whatever the operations are called. -/
theorem entryName_inj {job o o' : Text} {i i' : ℕ} (h : entryName job i o = entryName job i' o') : i = i' ∧ o = o' := by
  unfold entryName at h
  simp only [List.append_assoc] at h
  have h := List.append_cancel_left (List.append_cancel_left h)
  have key : ∀ (t : Text), (∀ c ∈ t, isDig c = true) → ∀ u, (t ++ (" ".toList ++ u)).takeWhile isDig = t := by
    intro t ht u
    induction t with
    | nil => rfl
    | cons c t ih =>
      rw [List.cons_append, List.takeWhile_cons_of_pos (ht c (by simp)), ih (fun c hc => ht c (by simp [hc]))]
  have e := congrArg (List.takeWhile isDig) h
  rw [key _ (natText_digits i), key _ (natText_digits i')] at e
  have ei : i = i' := by rw [← readNat_natText i, e, readNat_natText]
  rw [e] at h
  exact ⟨ei, List.append_cancel_left (List.append_cancel_left h)⟩

theorem showFrom_calls (k : DrawKernel) (part : Text) (j : Job) (os : List Operation) (i : ℕ) :
    ∃ n, n ≤ os.length ∧ (showFrom k part j i os).1.length = n ∧
      (∀ m o, m < n → os[m]? = some o → ∃ p, (showFrom k part j i os).1[m]? = some (p, entryName j.name (i + m) o.name) ∧
        pictureFor k part j.top o.commands.tail = .ok p) ∧
      ((showFrom k part j i os).2 = .ok () ∧ n = os.length ∨
        ∃ e o, (showFrom k part j i os).2 = .error e ∧ os[n]? = some o ∧ pictureFor k part j.top o.commands.tail = .error e) := by
  induction os generalizing i with
  | nil => exact ⟨0, le_refl _, rfl, by simp, .inl ⟨rfl, rfl⟩⟩
  | cons o os ih =>
    unfold showFrom
    rw [List.drop_one]
    cases hp : pictureFor k part j.top o.commands.tail with
    | error e => exact ⟨0, by simp, rfl, by simp, .inr ⟨e, o, rfl, rfl, hp⟩⟩
    | ok p =>
      obtain ⟨n, h1, h2, h3, h4⟩ := ih (i + 1)
      refine ⟨n + 1, by simpa using h1, by simpa using h2, ?_, ?_⟩
      · intro m o' hm ho
        cases m with
        | zero =>
          simp only [List.getElem?_cons_zero, Option.some.injEq] at ho
          subst ho
          exact ⟨p, rfl, hp⟩
        | succ m =>
          simp only [List.getElem?_cons_succ] at ho ⊢
          obtain ⟨q, g1, g2⟩ := h3 m o' (by omega) ho
          rw [show i + (m + 1) = i + 1 + m by omega]
          exact ⟨q, g1, g2⟩
      · simpa using h4

/-- C117.  `show` with a viewer: the entries are those of the first operations, in order, each with the picture of its
operation, named after the job, the operation and its number; all of them, unless the picture of the next operation cannot be
made, and then its exception is raised. -/
theorem C117_entries (k : DrawKernel) (m : Text) (j : Job) :
    ∃ n, n ≤ j.operations.length ∧ (j.show k (some m)).1.length = n ∧
      (∀ i o, i < n → j.operations[i]? = some o → ∃ p, (j.show k (some m)).1[i]? =
          some (p, j.name ++ " #".toList ++ natText i ++ " ".toList ++ o.name) ∧
        pictureFor k (firstPart m) j.top o.commands.tail = .ok p) ∧
      ((j.show k (some m)).2 = .ok () ∧ n = j.operations.length ∨
        ∃ e o, (j.show k (some m)).2 = .error e ∧ j.operations[n]? = some o ∧
          pictureFor k (firstPart m) j.top o.commands.tail = .error e) := by
  have h := showFrom_calls k (firstPart m) j j.operations 0
  simp only [Nat.zero_add] at h
  exact h

/-- C117, names.  No two entries have the same name. -/
theorem C117_names (k : DrawKernel) (viewer : Option Text) (j : Job) : ((j.show k viewer).1.map Prod.snd).Nodup := by
  cases viewer with
  | none => exact List.nodup_nil
  | some m =>
    obtain ⟨n, h1, h2, h3, -⟩ := C117_entries k m j
    have key : ∀ i (hi : i < n), ((j.show k (some m)).1[i]?).map Prod.snd = some (entryName j.name i (j.operations[i]'(by omega)).name) := by
      intro i hi
      obtain ⟨p, g, -⟩ := h3 i _ hi (List.getElem?_eq_getElem (by omega))
      rw [g]
      rfl
    rw [List.nodup_iff_getElem?_ne_getElem?]
    intro a b hab hb
    rw [List.length_map, h2] at hb
    rw [List.getElem?_map, List.getElem?_map, key a (by omega), key b hb]
    intro e
    have := (entryName_inj (Option.some.inj e)).1
    omega

/-- C117.  Without a viewer: `ValueError`, and nothing is shown. -/
theorem C117_no_viewer (k : DrawKernel) (j : Job) : j.show k none = ([], .error .valueError) := rfl

/-- The picture shows the moves of the operation after the first, in every viewer; the CQ-editor shows the axes of the job plane
too. -/
theorem C117_picture {k : DrawKernel} (hl : LinesMade k) (part : Text) (top : Frame) (cs : List Command) {p : Picture}
    (h : pictureFor k part top cs = .ok p) :
    ∃ ds, visualizeEdges k top cs = .ok ds ∧ p.drawing = ds ++ if part = "cq_editor".toList then planeAxes top else [] := by
  unfold pictureFor at h
  split at h
  · rename_i hp
    have hg := C67_groups hl top cs
    cases hv : visualizeGroup k top cs with
    | error e => rw [hv] at h; cases h
    | ok g =>
      rw [hv] at h hg
      cases h
      cases he : visualizeEdges k top cs with
      | error e => rw [he] at hg; cases hg
      | ok ds =>
        rw [he] at hg
        refine ⟨ds, rfl, ?_⟩
        rw [if_pos hp]
        exact Except.ok.inj hg
  · rename_i hp
    cases he : visualizeEdges k top cs with
    | error e => rw [he] at h; cases h
    | ok ds =>
      rw [he] at h
      cases h
      refine ⟨ds, rfl, ?_⟩
      rw [if_neg hp, List.append_nil]
      rfl

theorem pictureFor_ok {k : DrawKernel} (hl : LinesMade k) (part : Text) (top : Frame) {cs : List Command} {ds : List Drawn}
    (h : visualizeEdges k top cs = .ok ds) : ∃ p, pictureFor k part top cs = .ok p := by
  unfold pictureFor
  split
  · have hg := C67_groups hl top cs
    rw [h] at hg
    cases hv : visualizeGroup k top cs with
    | error e => rw [hv] at hg; cases hg
    | ok g => exact ⟨_, rfl⟩
  · rw [h]
    exact ⟨_, rfl⟩

theorem edges_known {k : DrawKernel} (hl : LinesMade k) (top : Frame) (cs : List Motion) (ha : ∀ c ∈ cs, ArcKnown c) :
    ∃ ds, visualizeEdges k top (cs.map .motion) = .ok ds := by
  induction cs with
  | nil => exact ⟨[], rfl⟩
  | cons c cs ih =>
    obtain ⟨ds, h⟩ := ih (fun x hx => ha x (by simp [hx]))
    have hd : ∃ s, Command.draw k true (.motion c) = .ok s := by
      cases hk : c.kind.isArc with
      | false =>
        rw [draw_straight k true hk]
        cases he : k.eq c.start.orZero (c.fin.toVecAbs c.start.orZero) with
        | true => exact ⟨_, drawStraight_stay true he⟩
        | false => exact ⟨_, drawStraight_line hl true he⟩
      | true =>
        rw [draw_arc k true hk]
        obtain ⟨a, m, b, h1, h2, h3⟩ := ha c (by simp) hk
        unfold Motion.drawArc
        rw [h1, h2, h3]
        have e : ∀ v w : Vec, (AddrVec.fromVec v).toVecFrom (AddrVec.fromVec w) = some v := fun _ _ => rfl
        simp only [e]
        split
        · exact ⟨_, rfl⟩
        · split
          · exact ⟨_, rfl⟩
          · split
            · exact ⟨_, rfl⟩
            · exact ⟨_, rfl⟩
    obtain ⟨s, hs⟩ := hd
    rw [List.map_cons]
    unfold visualizeEdges
    rw [hs, ok_bind, h, ok_bind]
    exact ⟨_, rfl⟩

/-- C117, every viewer.  A job made by operations whose arcs have known ends is shown completely: one entry for each operation,
with its own name. -/
theorem C117_job {k : DrawKernel} (hl : LinesMade k) {j0 j : Job} (h0 : j0.operations = [])
    (h : ReachWith (fun r => ∀ j cs, r.gen j = .ok cs → ∀ c ∈ cs, ArcKnown c) j0 j) (m : Text) :
    (j.show k (some m)).2 = .ok () ∧ (j.show k (some m)).1.length = j.operations.length := by
  have ho := reach_origin h0 h
  have hd : ∀ o ∈ j.operations, ∃ p, pictureFor k (firstPart m) j.top o.commands.tail = .ok p := by
    intro o hm
    rcases ho o hm with ⟨n, s, c, e⟩ | ⟨s, c, e⟩ | ⟨r, j', cs, hp, hg, e⟩
    · rw [e]; exact pictureFor_ok hl _ _ (ds := []) rfl
    · rw [e]; exact pictureFor_ok hl _ _ (ds := []) rfl
    · rw [e, ← List.map_tail]
      obtain ⟨ds, h⟩ := edges_known hl j.top cs.tail (fun c hc => hp j' cs hg c (List.mem_of_mem_tail hc))
      exact pictureFor_ok hl _ _ h
  obtain ⟨n, -, h2, -, h4⟩ := C117_entries k m j
  rcases h4 with ⟨h4, rfl⟩ | ⟨e, o, -, g1, g2⟩
  · exact ⟨h4, h2⟩
  · obtain ⟨p, hp⟩ := hd o (List.mem_of_getElem? g1)
    rw [hp] at g2
    cases g2

/-- A job with two operations of the same name, and its entries in two viewers; it meets the hypotheses of `C117_job`. -/
example : ∃ j cs, highRequest.gen demoInit = .ok cs ∧ (∀ c ∈ cs, ArcKnown c) ∧
    j = ({ demoInit with name := "Job".toList, operations := [⟨"Job".toList, "High".toList, cs.map .motion⟩,
      ⟨"Job".toList, "High".toList, cs.map .motion⟩] } : Job) ∧
    ((j.show exactKernel (some "cq_editor.main".toList)).1.map Prod.snd = ["Job #0 High".toList, "Job #1 High".toList]) ∧
    ((j.show exactKernel (some "ocp_vscode".toList)).1.map Prod.snd = ["Job #0 High".toList, "Job #1 High".toList]) ∧
    ((j.show exactKernel (some "cq_editor.main".toList)).1.map (fun c => c.1.drawing.length) = [6, 6]) ∧
    ((j.show exactKernel (some "ocp_vscode".toList)).1.map (fun c => c.1.drawing.length) = [3, 3]) := by
  refine ⟨_, _, rfl, ?_, rfl, by decide +kernel, by decide +kernel, by decide +kernel, by decide +kernel⟩
  intro c hc ha
  simp only [List.mem_cons, List.not_mem_nil, or_false] at hc
  rcases hc with rfl | rfl | rfl | rfl <;> cases ha

end CQ
