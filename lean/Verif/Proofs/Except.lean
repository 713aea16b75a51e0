import Verif.Py.Err
import Mathlib.Data.List.Forall2

/-! # Lemmas about results that may be exceptions -/

namespace CQ

theorem bind_ok {α β : Type} {x : Except Err α} {f : α → Except Err β} {b : β} :
    (x >>= f) = .ok b ↔ ∃ a, x = .ok a ∧ f a = .ok b := by
  cases x with
  | error e => simp [bind, Except.bind]
  | ok a => simp [bind, Except.bind]

theorem ok_bind {α β : Type} {a : α} {f : α → Except Err β} : ((.ok a : Except Err α) >>= f) = f a := rfl

theorem error_bind {α β : Type} {e : Err} {f : α → Except Err β} : ((.error e : Except Err α) >>= f) = .error e := rfl

theorem forall₂_mem_left {α β : Type} {R : α → β → Prop} {as : List α} {bs : List β} (h : List.Forall₂ R as bs) {a : α}
    (ha : a ∈ as) : ∃ b ∈ bs, R a b := by
  induction h with
  | nil => simp at ha
  | cons h1 _ ih =>
    rcases List.mem_cons.mp ha with rfl | ha
    · exact ⟨_, by simp, h1⟩
    · obtain ⟨b, hb, h⟩ := ih ha
      exact ⟨b, by simp [hb], h⟩

theorem forall₂_mem_right {α β : Type} {R : α → β → Prop} {as : List α} {bs : List β} (h : List.Forall₂ R as bs) {b : β}
    (hb : b ∈ bs) : ∃ a ∈ as, R a b := by
  induction h with
  | nil => simp at hb
  | cons h1 _ ih =>
    rcases List.mem_cons.mp hb with rfl | hb
    · exact ⟨_, by simp, h1⟩
    · obtain ⟨a, ha, h⟩ := ih hb
      exact ⟨a, by simp [ha], h⟩

theorem mapE_ok {α β : Type} {f : α → Except Err β} {as : List α} {bs : List β} :
    mapE f as = .ok bs ↔ List.Forall₂ (fun a b => f a = .ok b) as bs := by
  induction as generalizing bs with
  | nil =>
    constructor
    · intro h; cases h; exact .nil
    · intro h; cases h; rfl
  | cons a as ih =>
    unfold mapE
    rw [bind_ok]
    constructor
    · rintro ⟨b, h1, h2⟩
      obtain ⟨bs', h3, h4⟩ := bind_ok.mp h2
      cases h4
      exact .cons h1 (ih.mp h3)
    · intro h
      cases h with
      | cons h1 h2 => exact ⟨_, h1, bind_ok.mpr ⟨_, ih.mpr h2, rfl⟩⟩

theorem mapE_mem {α β : Type} {f : α → Except Err β} {as : List α} {bs : List β} (h : mapE f as = .ok bs) {b : β}
    (hb : b ∈ bs) : ∃ a ∈ as, f a = .ok b := by
  rw [mapE_ok] at h
  induction h with
  | nil => simp at hb
  | cons h1 _ ih =>
    rcases List.mem_cons.mp hb with rfl | hb
    · exact ⟨_, by simp, h1⟩
    · obtain ⟨a, ha, h⟩ := ih hb
      exact ⟨a, by simp [ha], h⟩

theorem mapE_mem' {α β : Type} {f : α → Except Err β} {as : List α} {bs : List β} (h : mapE f as = .ok bs) {a : α}
    (ha : a ∈ as) : ∃ b ∈ bs, f a = .ok b := by
  rw [mapE_ok] at h
  induction h with
  | nil => simp at ha
  | cons h1 _ ih =>
    rcases List.mem_cons.mp ha with rfl | ha
    · exact ⟨_, by simp, h1⟩
    · obtain ⟨b, hb, h⟩ := ih ha
      exact ⟨b, by simp [hb], h⟩

/-- If the body never raises, neither does the comprehension. -/
theorem mapE_total {α β : Type} {f : α → Except Err β} {as : List α} (h : ∀ a ∈ as, ∃ b, f a = .ok b) :
    ∃ bs, mapE f as = .ok bs := by
  induction as with
  | nil => exact ⟨[], rfl⟩
  | cons a as ih =>
    obtain ⟨b, hb⟩ := h a (by simp)
    obtain ⟨bs, hbs⟩ := ih (fun x hx => h x (by simp [hx]))
    exact ⟨b :: bs, by unfold mapE; rw [hb, hbs]; rfl⟩

end CQ
