import Verif.Model.Op3d
import Verif.Spec.Surface
import Verif.Proofs.ZigZag
import Mathlib.Tactic.Linarith
import Mathlib.Tactic.FieldSimp
import Mathlib.Tactic.Ring

/-! # Lemmas on 3D surfacing -/

namespace CQ

/-- `norm` measures lengths: never shorter than `1 / r` of the true length. -/
structure Measures (r : ℚ) (norm : Pt → ℚ) : Prop where
  zero : norm ⟨0, 0⟩ = 0
  pos : ∀ v : Pt, v ≠ ⟨0, 0⟩ → 0 < norm v
  near : ∀ v : Pt, v.x * v.x + v.y * v.y ≤ (r * norm v) ^ 2

def StepUp (step a b : ℚ) : Prop := 0 ≤ b - a ∧ b - a ≤ step

theorem steps_chain {step l : ℚ} (hs : 0 ≤ step) : ∀ (n : ℕ) (S : ℚ), S + n * step ≤ l → l ≤ S + (n + 1) * step →
    List.IsChain (StepUp step) (S :: ((List.range n).map (fun i : ℕ => S + (i + 1) * step) ++ [l])) := by
  intro n
  induction n with
  | zero =>
    intro S h1 h2
    simp at h1 h2
    simp [StepUp]
    constructor <;> linarith
  | succ n ih =>
    intro S h1 h2
    rw [List.range_succ_eq_map]
    simp only [List.map_cons, List.map_map, List.cons_append]
    refine List.IsChain.cons_cons ?_ ?_
    · constructor <;> (simp; try linarith)
    · push_cast at h1 h2
      have := ih (S + step) (by linarith) (by linarith)
      simp only [Nat.cast_zero, zero_add, one_mul]
      have e : ((fun i : ℕ => S + (i + 1) * step) ∘ Nat.succ) = fun i : ℕ => (S + step) + (i + 1) * step := by
        funext i; simp only [Function.comp, Nat.succ_eq_add_one]; push_cast; ring
      rw [e]
      exact this

theorem arange_chain {step l : ℚ} (hs : 0 < step) (hl : 0 < l) :
    List.IsChain (StepUp step) (0 :: (arange 0 l step ++ [l])) := by
  have hp : 0 < ⌈(l - 0) / step⌉.toNat := by
    rw [sub_zero]
    have : 0 < ⌈l / step⌉ := Int.ceil_pos.mpr (div_pos hl hs)
    omega
  obtain ⟨n, hn⟩ : ∃ n, ⌈(l - 0) / step⌉.toNat = n + 1 := ⟨_, (Nat.succ_pred_eq_of_pos hp).symm⟩
  have hc : ⌈l / step⌉ = (n : ℤ) + 1 := by rw [sub_zero] at hn; omega
  have h1 : l / step ≤ (n : ℚ) + 1 := by
    have := Int.le_ceil (l / step); rw [hc] at this; push_cast at this; exact this
  have h2 : (n : ℚ) < l / step := by
    have := Int.ceil_lt_add_one (l / step); rw [hc] at this; push_cast at this; linarith
  rw [div_le_iff₀ hs] at h1
  rw [lt_div_iff₀ hs] at h2
  unfold arange
  rw [hn, List.range_succ_eq_map]
  simp only [List.map_cons, List.map_map, List.cons_append]
  refine List.IsChain.cons_cons ⟨by simp, by simp [hs.le]⟩ ?_
  have := steps_chain (l := l) hs.le n 0 (by linarith) (by linarith)
  simp only [Nat.cast_zero, zero_mul, add_zero]
  have e : ((fun i : ℕ => (0 : ℚ) + i * step) ∘ Nat.succ) = fun i : ℕ => (0 : ℚ) + (i + 1) * step := by
    funext i; simp only [Function.comp, Nat.succ_eq_add_one]; push_cast; ring
  rw [e]
  exact this

theorem arange_zero (step : ℚ) : arange 0 0 step = [] := by simp [arange]

theorem arange_lt {l step : ℚ} (hs : 0 < step) {x : ℚ} (hx : x ∈ arange 0 l step) : 0 ≤ x ∧ x < l := by
  unfold arange at hx
  obtain ⟨i, hi, rfl⟩ := List.mem_map.mp hx
  have hi' := List.mem_range.mp hi
  rw [sub_zero] at hi'
  have h : (i : ℤ) < ⌈l / step⌉ := by omega
  rw [Int.lt_ceil, lt_div_iff₀ hs] at h
  push_cast at h
  refine ⟨?_, by linarith⟩
  have : (0 : ℚ) ≤ i := Nat.cast_nonneg i
  nlinarith

theorem arange_sorted {l step : ℚ} (hs : 0 < step) : List.Pairwise (· < ·) (arange 0 l step) := by
  unfold arange
  rw [List.pairwise_map]
  refine List.Pairwise.imp ?_ List.pairwise_lt_range
  intro a b h
  have : (a : ℚ) < b := by exact_mod_cast h
  nlinarith

theorem forall2_map_map {α β γ} {R : β → γ → Prop} (l : List α) (f : α → β) (g : α → γ) (h : ∀ x ∈ l, R (f x) (g x)) :
    List.Forall₂ R (l.map f) (l.map g) := by
  induction l with
  | nil => exact .nil
  | cons a l ih => exact .cons (h a (by simp)) (ih fun x hx => h x (by simp [hx]))

/-- The points put on one segment. -/
theorem samples_along {r step l : ℚ} (hs : 0 < step) {p q : Pt} (hl : 0 < l)
    (hn : (q.x - p.x) * (q.x - p.x) + (q.y - p.y) * (q.y - p.y) ≤ (r * l) ^ 2) :
    AlongSegment p q ((arange 0 l step).map (fun s => (⟨p.x + (q.x - p.x) / l * s, p.y + (q.y - p.y) / l * s⟩ : Pt))) ∧
    List.IsChain (fun a b => sqDist a b ≤ (r * step) ^ 2)
      (p :: ((arange 0 l step).map (fun s => (⟨p.x + (q.x - p.x) / l * s, p.y + (q.y - p.y) / l * s⟩ : Pt)) ++ [q])) := by
  constructor
  · refine ⟨(arange 0 l step).map (· / l), ?_, ?_⟩
    · rw [List.pairwise_map]
      refine List.Pairwise.imp ?_ (arange_sorted hs)
      intro a b h
      exact div_lt_div_of_pos_right h hl
    · refine forall2_map_map _ _ _ ?_
      intro x hx
      obtain ⟨h0, h1⟩ := arange_lt hs hx
      refine ⟨div_nonneg h0 hl.le, ?_, ?_⟩
      · rw [div_le_one hl]; exact h1.le
      · unfold Pt.lerp
        congr 1 <;> (field_simp)
  · have hc := arange_chain hs hl
    obtain ⟨f, hf⟩ : ∃ f : ℚ → Pt, f = fun s => (⟨p.x + (q.x - p.x) / l * s, p.y + (q.y - p.y) / l * s⟩ : Pt) := ⟨_, rfl⟩
    have e : p :: ((arange 0 l step).map f ++ [q]) = (0 :: (arange 0 l step ++ [l])).map f := by
      simp only [List.map_cons, List.map_append, List.map_nil]
      have e1 : f 0 = p := by rw [hf]; simp
      have e2 : f l = q := by
        rw [hf]
        simp only
        rw [div_mul_cancel₀ _ hl.ne', div_mul_cancel₀ _ hl.ne']
        simp
      rw [e1, e2]
    rw [← hf, e, List.isChain_map]
    refine List.IsChain.imp ?_ hc
    intro a b ⟨h1, h2⟩
    rw [hf]
    unfold sqDist
    simp only
    have hu : ((q.x - p.x) / l) * ((q.x - p.x) / l) + ((q.y - p.y) / l) * ((q.y - p.y) / l) ≤ r ^ 2 := by
      have : ((q.x - p.x) / l) * ((q.x - p.x) / l) + ((q.y - p.y) / l) * ((q.y - p.y) / l)
          = ((q.x - p.x) * (q.x - p.x) + (q.y - p.y) * (q.y - p.y)) / l ^ 2 := by field_simp
      rw [this, div_le_iff₀ (by positivity)]
      linarith [hn, mul_pow r l 2]
    have hab : (b - a) ^ 2 ≤ step ^ 2 := by nlinarith
    have e : ∀ X Y : ℚ, (p.x + X * a - (p.x + X * b)) * (p.x + X * a - (p.x + X * b)) +
        (p.y + Y * a - (p.y + Y * b)) * (p.y + Y * a - (p.y + Y * b)) = (X * X + Y * Y) * (b - a) ^ 2 := by
      intros; ring
    rw [e]
    calc _ ≤ r ^ 2 * (b - a) ^ 2 := mul_le_mul_of_nonneg_right hu (sq_nonneg _)
      _ ≤ r ^ 2 * step ^ 2 := mul_le_mul_of_nonneg_left hab (sq_nonneg _)
      _ = (r * step) ^ 2 := by ring

theorem interpolateFrom_refines {eng : SurfaceEngine} {r step : ℚ} (hs : 0 < step) (hm : Measures r eng.norm) :
    ∀ {seq : List Pt} {p : Pt} {out : List Pt}, interpolateFrom eng step p seq = .ok out →
      Refines (r * step) (p :: seq) (p :: out) := by
  intro seq
  induction seq with
  | nil =>
    intro p out h
    cases h
    exact .single p
  | cons q seq ih =>
    intro p out h
    unfold interpolateFrom at h
    dsimp only at h
    split at h
    · cases h
    · rw [if_neg hs.ne'] at h
      obtain ⟨rest, h1, h⟩ := bind_ok.mp h
      cases h
      by_cases hv : (⟨q.x - p.x, q.y - p.y⟩ : Pt) = ⟨0, 0⟩
      · rw [hv, hm.zero, arange_zero]
        refine Refines.cons (ms := []) ⟨[], by simp, .nil⟩ ?_ (ih h1)
        injection hv with hx hy
        have hx' : p.x - q.x = 0 := by linarith
        have hy' : p.y - q.y = 0 := by linarith
        simp [sqDist, hx', hy']
        positivity
      · have hl := hm.pos _ hv
        obtain ⟨a, b⟩ := samples_along (r := r) hs hl (hm.near ⟨q.x - p.x, q.y - p.y⟩)
        exact Refines.cons a b (ih h1)

theorem interpolateFrom_total {eng : SurfaceEngine} {step : ℚ} (hs : step ≠ 0) :
    ∀ {seq : List Pt} {p : Pt}, List.IsChain (· ≠ ·) (p :: seq) ∨ eng.strict = false →
      ∃ out, interpolateFrom eng step p seq = .ok out := by
  intro seq
  induction seq with
  | nil => intro p _; exact ⟨_, rfl⟩
  | cons q seq ih =>
    intro p h
    have hv : (eng.strict && decide ((⟨q.x - p.x, q.y - p.y⟩ : Pt) = ⟨0, 0⟩)) = false := by
      rcases h with h | h
      · rw [List.isChain_cons_cons] at h
        have : (⟨q.x - p.x, q.y - p.y⟩ : Pt) ≠ ⟨0, 0⟩ := by
          intro hv
          injection hv with hx hy
          apply h.1
          rcases p with ⟨px, py⟩
          rcases q with ⟨qx, qy⟩
          simp only at hx hy
          rw [show px = qx by linarith, show py = qy by linarith]
        simp [this]
      · simp [h]
    obtain ⟨rest, hr⟩ := ih (p := q) (h.imp_left fun h => (List.isChain_cons_cons.mp h).2)
    unfold interpolateFrom
    dsimp only
    rw [hv, if_neg (by simp), if_neg hs, hr]
    exact ⟨_, rfl⟩

/-! ### Heights -/

/-- A point of the plane with its height. -/
def lift (h : Pt → ℚ) (p : Pt) : Vec := ⟨p.x, p.y, h p⟩

theorem mergeSequence_map (h : Pt → ℚ) : ∀ (s : List Pt) (zs : List ℚ),
    mergeSequence s (s.map h ++ zs) = .ok (s.map (lift h), zs)
  | [], zs => rfl
  | p :: s, zs => by
    simp only [List.map_cons, List.cons_append, mergeSequence]
    rw [mergeSequence_map h s zs]
    rfl

theorem mergeHeights_map (h : Pt → ℚ) : ∀ (ss : List (List Pt)),
    mergeHeights ss (ss.flatten.map h) = .ok (ss.map (fun s => s.map (lift h)))
  | [] => rfl
  | s :: ss => by
    simp only [List.flatten_cons, List.map_append, mergeHeights]
    rw [mergeSequence_map h s]
    simp only [ok_bind]
    rw [mergeHeights_map h ss]
    rfl

/-! ### Pieces -/

theorem chopFrom_chopped (limit : ℚ) : ∀ (seq cur : List Vec), (∀ p ∈ cur, p.z ≤ limit) →
    Chopped (fun p => p.z ≤ limit) (cur ++ seq) (chopFrom limit cur seq) := by
  intro seq
  induction seq with
  | nil =>
    intro cur hc
    unfold chopFrom
    split
    · rename_i h; subst h; exact .none (by simp)
    · rename_i h
      rw [List.append_nil]
      have := Chopped.last (keep := fun p : Vec => p.z ≤ limit) (gap := []) (by simp) h hc
      simpa using this
  | cons p seq ih =>
    intro cur hc
    unfold chopFrom
    split
    · rename_i hp
      have hp' : ¬ p.z ≤ limit := not_le.mpr hp
      have hr := ih [] (by simp)
      rw [List.nil_append] at hr
      split
      · rename_i h
        subst h
        rw [List.nil_append]
        -- one more point in the gap
        obtain ⟨X, hX⟩ : ∃ X, chopFrom limit [] seq = X := ⟨_, rfl⟩
        rw [hX] at hr ⊢
        cases hr with
        | none h => exact .none (by simpa using ⟨hp, fun q hq => lt_of_not_ge (h q hq)⟩)
        | last h hne hk =>
          have h' := Chopped.last (keep := fun p : Vec => p.z ≤ limit) (gap := p :: _)
            (fun q hq => by rcases List.mem_cons.mp hq with rfl | hq; exacts [hp', h q hq]) hne hk
          simpa using h'
        | cons h hne hk hc hr =>
          have h' := Chopped.cons (keep := fun p : Vec => p.z ≤ limit) (gap := p :: _)
            (fun q hq => by rcases List.mem_cons.mp hq with rfl | hq; exacts [hp', h q hq]) hne hk hc hr
          simpa using h'
      · rename_i h
        have h' := Chopped.cons (keep := fun p : Vec => p.z ≤ limit) (gap := []) (by simp) h hc hp' hr
        simpa using h'
    · rename_i hp
      have := ih (cur ++ [p]) (by
        intro q hq
        rcases List.mem_append.mp hq with hq | hq
        · exact hc q hq
        · rw [List.mem_singleton.mp hq]; exact not_lt.mp hp)
      simpa using this

theorem chopFrom_prefix (limit : ℚ) : ∀ (seq cur : List Vec), cur ≠ [] →
    ∃ Y rest, chopFrom limit cur seq = (cur ++ Y) :: rest := by
  intro seq
  induction seq with
  | nil => intro cur h; exact ⟨[], [], by simp [chopFrom, h]⟩
  | cons p seq ih =>
    intro cur h
    unfold chopFrom
    split
    · exact ⟨[], _, by rw [List.append_nil]⟩
    · obtain ⟨Y, rest, e⟩ := ih (cur ++ [p]) (by simp)
      exact ⟨p :: Y, rest, by rw [e]; simp⟩

/-- Two kept neighbours end up in one piece. -/
theorem chopFrom_pair {limit : ℚ} {p q : Vec} (hp : p.z ≤ limit) (hq : q.z ≤ limit) (B : List Vec) : ∀ (A cur : List Vec),
    ∃ X Y, (X ++ p :: q :: Y) ∈ chopFrom limit cur (A ++ p :: q :: B) := by
  intro A
  induction A with
  | nil =>
    intro cur
    rw [List.nil_append]
    unfold chopFrom
    rw [if_neg (not_lt.mpr hp)]
    unfold chopFrom
    rw [if_neg (not_lt.mpr hq)]
    obtain ⟨Y, rest, e⟩ := chopFrom_prefix limit B (cur ++ [p] ++ [q]) (by simp)
    rw [e]
    exact ⟨cur, Y, by simp⟩
  | cons a A ih =>
    intro cur
    rw [List.cons_append]
    unfold chopFrom
    split
    · split
      · exact ih []
      · obtain ⟨X, Y, h⟩ := ih []
        exact ⟨X, Y, List.mem_cons_of_mem _ h⟩
    · exact ih _

/-- Every point of a piece is a point of a sequence, at or below the limit. -/
theorem mem_chopFrom {limit : ℚ} : ∀ {seq cur : List Vec} {piece : List Vec}, (∀ p ∈ cur, p.z ≤ limit) →
    piece ∈ chopFrom limit cur seq → piece ≠ [] ∧ ∀ p ∈ piece, (p ∈ cur ∨ p ∈ seq) ∧ p.z ≤ limit := by
  intro seq
  induction seq with
  | nil =>
    intro cur piece hc h
    unfold chopFrom at h
    split at h
    · cases h
    · rename_i hne
      rw [List.mem_singleton] at h
      subst h
      exact ⟨hne, fun p hp => ⟨.inl hp, hc p hp⟩⟩
  | cons a seq ih =>
    intro cur piece hc h
    unfold chopFrom at h
    have key : piece ∈ chopFrom limit [] seq → piece ≠ [] ∧ ∀ p ∈ piece, (p ∈ cur ∨ p ∈ a :: seq) ∧ p.z ≤ limit := by
      intro h
      obtain ⟨h1, h2⟩ := ih (by simp) h
      refine ⟨h1, fun p hp => ⟨.inr ?_, (h2 p hp).2⟩⟩
      rcases (h2 p hp).1 with h | h
      · cases h
      · exact List.mem_cons_of_mem _ h
    split at h
    · split at h
      · exact key h
      · rename_i hne
        rcases List.mem_cons.mp h with rfl | h
        · exact ⟨hne, fun p hp => ⟨.inl hp, hc p hp⟩⟩
        · exact key h
    · rename_i ha
      obtain ⟨h1, h2⟩ := ih (cur := cur ++ [a]) (by
        intro q hq
        rcases List.mem_append.mp hq with hq | hq
        · exact hc q hq
        · rw [List.mem_singleton.mp hq]; exact not_lt.mp ha) h
      refine ⟨h1, fun p hp => ⟨?_, (h2 p hp).2⟩⟩
      rcases (h2 p hp).1 with h | h
      · rcases List.mem_append.mp h with h | h
        · exact .inl h
        · exact .inr (by rw [List.mem_singleton.mp h]; simp)
      · exact .inr (List.mem_cons_of_mem _ h)

/-! ### Moves -/

theorem mem_surfaceCuts {d : ℚ} : ∀ {ps : List Vec} {pos : AddrVec} {c : Motion}, c ∈ surfaceCuts d pos ps →
    ∃ q ∈ ps, c.kind = .cut ∧ c.fin = ⟨some q.x, some q.y, some (max d q.z)⟩ ∧ c.feed = none := by
  intro ps
  induction ps with
  | nil => intro pos c h; cases h
  | cons p ps ih =>
    intro pos c h
    rcases List.mem_cons.mp h with rfl | h
    · exact ⟨p, by simp, rfl, rfl, rfl⟩
    · obtain ⟨q, hq, h⟩ := ih h
      exact ⟨q, List.mem_cons_of_mem _ hq, h⟩

theorem surfaceCuts_mem {d : ℚ} : ∀ {ps : List Vec} {pos : AddrVec} {q : Vec}, q ∈ ps →
    ∃ c ∈ surfaceCuts d pos ps, c.kind = .cut ∧ c.fin = ⟨some q.x, some q.y, some (max d q.z)⟩ := by
  intro ps
  induction ps with
  | nil => intro pos q h; cases h
  | cons p ps ih =>
    intro pos q h
    rcases List.mem_cons.mp h with rfl | h
    · exact ⟨_, List.mem_cons_self, rfl, rfl⟩
    · obtain ⟨c, hc, h⟩ := ih h
      exact ⟨c, List.mem_cons_of_mem _ hc, h⟩

/-- What each move for a piece can be. -/
def PieceMove (j : Job) (d : ℚ) (piece : List Vec) (c : Motion) : Prop :=
  (c.kind = .rapid ∧ c.fin = ⟨c.start.x, c.start.y, some j.rapidHeight⟩) ∨
  (c.kind = .rapid ∧ c.start.z = some j.rapidHeight ∧ ∃ p ∈ piece, c.fin = ⟨some p.x, some p.y, some j.rapidHeight⟩) ∨
  (c.kind = .rapid ∧ ∃ p ∈ piece, c.start = ⟨some p.x, some p.y, some j.rapidHeight⟩ ∧
    c.fin = ⟨some p.x, some p.y, some j.opSafeHeight⟩) ∨
  ∃ p ∈ piece, c.kind = .cut ∧ c.fin = ⟨some p.x, some p.y, some (max d p.z)⟩ ∧ c.feed = none

theorem mem_pieceMoves {j : Job} {d : ℚ} {pos : AddrVec} {piece : List Vec} {c : Motion}
    (h : c ∈ pieceMoves j d pos piece) : PieceMove j d piece c := by
  cases piece with
  | nil => cases h
  | cons p ps =>
    unfold pieceMoves at h
    rcases List.mem_append.mp h with h | h
    · simp only [List.mem_cons, List.not_mem_nil, or_false] at h
      rcases h with rfl | rfl | rfl
      · exact .inl ⟨rfl, by simp [rapidAbs, fillEnd]⟩
      · exact .inr (.inl ⟨rfl, rfl, p, by simp, rfl⟩)
      · exact .inr (.inr (.inl ⟨rfl, p, by simp, rfl, rfl⟩))
    · obtain ⟨q, hq, h⟩ := mem_surfaceCuts h
      exact .inr (.inr (.inr ⟨q, List.mem_cons_of_mem _ hq, h⟩))

theorem mem_piecesMoves {j : Job} {d : ℚ} : ∀ {pieces : List (List Vec)} {pos : AddrVec} {c : Motion},
    c ∈ piecesMoves j d pos pieces → ∃ piece ∈ pieces, PieceMove j d piece c := by
  intro pieces
  induction pieces with
  | nil => intro pos c h; cases h
  | cons s ss ih =>
    intro pos c h
    rcases List.mem_append.mp h with h | h
    · exact ⟨s, by simp, mem_pieceMoves h⟩
    · obtain ⟨piece, hp, h⟩ := ih h
      exact ⟨piece, List.mem_cons_of_mem _ hp, h⟩

theorem piecesMoves_mem {j : Job} {d : ℚ} : ∀ {pieces : List (List Vec)} {pos : AddrVec} {piece : List Vec},
    piece ∈ pieces → ∃ pos', ∀ c ∈ pieceMoves j d pos' piece, c ∈ piecesMoves j d pos pieces := by
  intro pieces
  induction pieces with
  | nil => intro pos piece h; cases h
  | cons s ss ih =>
    intro pos piece h
    rcases List.mem_cons.mp h with rfl | h
    · exact ⟨pos, fun c hc => List.mem_append_left _ hc⟩
    · obtain ⟨pos', h⟩ := ih (pos := lastFin pos (pieceMoves j d pos s)) h
      exact ⟨pos', fun c hc => List.mem_append_right _ (h c hc)⟩

/-- The moves split into the passes. -/
theorem passesMoves_split {j : Job} {depths : List ℚ} {seqs : List (List Vec)} : ∀ (rest : List ℚ) (i : ℕ) (pos : AddrVec),
    ∃ passes : List (List Motion), passesMoves j depths seqs i pos rest = passes.flatten ∧ passes.length = rest.length ∧
      ∀ (k : ℕ) (d : ℚ) (cs : List Motion), rest[k]? = some d → passes[k]? = some cs →
        ∃ pos', cs = piecesMoves j d pos' (chopSequences seqs (passLimit depths (i + k))) := by
  intro rest
  induction rest with
  | nil => intro i pos; exact ⟨[], rfl, rfl, fun k d cs h => by simp at h⟩
  | cons d rest ih =>
    intro i pos
    obtain ⟨passes, e, hl, h⟩ := ih (i + 1)
      (lastFin pos (piecesMoves j d pos (chopSequences seqs (passLimit depths i))))
    refine ⟨piecesMoves j d pos (chopSequences seqs (passLimit depths i)) :: passes, ?_, by simp [hl], ?_⟩
    · unfold passesMoves
      simp only [List.flatten_cons]
      rw [e]
    · intro k d' cs h1 h2
      cases k with
      | zero =>
        simp only [List.getElem?_cons_zero, Option.some.injEq] at h1 h2
        subst h1 h2
        exact ⟨pos, by rw [Nat.add_zero]⟩
      | succ k =>
        rw [List.getElem?_cons_succ] at h1 h2
        obtain ⟨pos', h⟩ := h k d' cs h1 h2
        exact ⟨pos', by rw [h]; congr 3; omega⟩

/-- The moves for a boundary, once the heights are those of a height field. -/
theorem surfaceBoundary_ok {eng : SurfaceEngine} {args : SurfaceArgs} {j : Job} {poly : List Pt} {cs : List Motion}
    {h : Pt → ℚ} (hd : ∀ ps, eng.drop ps = ps.map h) (hc : surfaceBoundary eng args j poly = .ok cs) :
    ∃ paths seqs depths, zigzag eng.scan [poly] (args.toolDiameter * args.stepover) = .ok paths ∧
      List.Forall₂ (fun path s => interpolateSequence eng args.interpolationStep path = .ok s) paths seqs ∧
      surfaceDepths args.stepdown args.topHeight eng.bottom = .ok depths ∧
      cs = passesMoves j depths (seqs.map (fun s => s.map (lift h))) 0 {} depths := by
  unfold surfaceBoundary at hc
  obtain ⟨paths, h1, hc⟩ := bind_ok.mp hc
  obtain ⟨seqs, h2, hc⟩ := bind_ok.mp hc
  rw [hd, mergeHeights_map, ok_bind] at hc
  obtain ⟨depths, h3, hc⟩ := bind_ok.mp hc
  cases hc
  exact ⟨paths, seqs, depths, h1, mapE_ok.mp h2, h3, rfl⟩

end CQ
