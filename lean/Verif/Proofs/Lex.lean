import Verif.Spec.GCode
import Verif.Proofs.Decimal
import Verif.Model.Address

/-! Lemmas about the G-code reader of the specification. -/

namespace CQ

theorem isNumChar_of_isDig {c : Char} (h : isDig c = true) : isNumChar c = true := by
  simp [isNumChar, h]

theorem numChars_of_readUnsigned {t : Text} {q : ℚ} (h : readUnsigned t = some q) :
    ∀ c ∈ t, isNumChar c = true := by
  have ht := List.takeWhile_append_dropWhile (p := isDig) (l := t)
  intro c hc
  rw [← ht, List.mem_append] at hc
  rcases hc with hc | hc
  · exact isNumChar_of_isDig (List.mem_takeWhile_imp hc)
  · unfold readUnsigned at h
    rcases hd : t.dropWhile isDig with _ | ⟨d, fp⟩
    · rw [hd] at hc; simp at hc
    · rw [hd] at hc h
      simp only at h
      split at h
      · rename_i hcond
        obtain ⟨h1, h2, -⟩ := hcond
        rw [List.mem_cons] at hc
        rcases hc with rfl | hc
        · subst h1; decide
        · rw [List.all_eq_true] at h2
          exact isNumChar_of_isDig (h2 c hc)
      · simp at h

theorem numChars_of_readDec {t : Text} {q : ℚ} (h : readDec t = some q) :
    ∀ c ∈ t, isNumChar c = true := by
  rcases t with _ | ⟨c, t⟩
  · simp
  · by_cases h1 : c = '-'
    · subst h1
      simp only [readDec, if_true, Option.map_eq_some_iff] at h
      obtain ⟨a, ha, -⟩ := h
      intro x hx
      rw [List.mem_cons] at hx
      rcases hx with rfl | hx
      · decide
      · exact numChars_of_readUnsigned ha x hx
    by_cases h2 : c = '+'
    · subst h2
      simp [readDec] at h
      intro x hx
      rw [List.mem_cons] at hx
      rcases hx with rfl | hx
      · decide
      · exact numChars_of_readUnsigned h x hx
    · simp only [readDec, h1, h2, if_false] at h
      exact numChars_of_readUnsigned h

theorem isLetter_false_of_numChar {c : Char} (h : isNumChar c = true) : isLetter c = false := by
  have h2 : ∀ n : ℕ, 48 ≤ n → n ≤ 57 → isLetter (Char.ofNat n) = false := by
    intro n h1 h2; interval_cases n <;> decide
  by_cases hd : isDig c = true
  · have : ∃ n, 48 ≤ n ∧ n ≤ 57 ∧ c = Char.ofNat n := by
      refine ⟨c.toNat, ?_, ?_, (Char.ofNat_toNat c).symm⟩ <;>
      · simp only [isDig, Char.le_def, UInt32.le_iff_toNat_le, Bool.and_eq_true, decide_eq_true_eq] at hd
        obtain ⟨h3, h4⟩ := hd
        have e0 : ('0' : Char).val.toNat = 48 := rfl
        have e9 : ('9' : Char).val.toNat = 57 := rfl
        have e : c.toNat = c.val.toNat := rfl
        omega
    obtain ⟨n, a, b, rfl⟩ := this
    exact h2 n a b
  · simp [isNumChar, hd] at h
    rcases h with (rfl | rfl) | rfl <;> decide

theorem lex_num (n : Text) (h : ∀ c ∈ n, isNumChar c = true) (ws : List (Char × Text)) :
    n.foldr lexStep (some ([], ws)) = some (n, ws) := by
  induction n with
  | nil => rfl
  | cons c t ih =>
    rw [List.foldr_cons, ih (fun x hx => h x (by simp [hx]))]
    have hc := h c (by simp)
    simp [lexStep, isLetter_false_of_numChar hc, hc]

/-- A well-formed word: an upper case letter and number characters. -/
def GoodWord (w : Char × Text) : Prop :=
  isLetter w.1 = true ∧ w.1.toUpper = w.1 ∧ ∀ c ∈ w.2, isNumChar c = true

/-- Text of words without blanks. -/
def wordsText (ws : List (Char × Text)) : Text := (ws.map (fun w => w.1 :: w.2)).flatten

theorem lex_words (ws : List (Char × Text)) (h : ∀ w ∈ ws, GoodWord w) :
    (wordsText ws).foldr lexStep (some ([], [])) = some ([], ws) := by
  induction ws with
  | nil => rfl
  | cons w ws ih =>
    have hw := h w (by simp)
    have ih' := ih (fun x hx => h x (by simp [hx]))
    simp only [wordsText, List.map_cons, List.flatten_cons] at ih' ⊢
    rw [List.foldr_append, ih', List.foldr_cons, lex_num _ hw.2.2]
    simp [lexStep, hw.1, hw.2.1]

theorem lexWords_wordsText (ws : List (Char × Text)) (h : ∀ w ∈ ws, GoodWord w) :
    lexWords (wordsText ws) = some ws := by
  unfold lexWords; rw [lex_words ws h]

/-- No parenthesis. -/
def NoParen (t : Text) : Prop := ∀ c ∈ t, c ≠ '(' ∧ c ≠ ')'

theorem stripComments_noParen {t : Text} (h : NoParen t) : stripComments false t = some t := by
  induction t with
  | nil => rfl
  | cons c t ih =>
    have hc := h c (by simp)
    rw [stripComments, ih (fun x hx => h x (by simp [hx]))]
    simp [hc.1, hc.2]

theorem noParen_append {a b : Text} (ha : NoParen a) (hb : NoParen b) : NoParen (a ++ b) := by
  intro c hc; rw [List.mem_append] at hc; exact hc.elim (ha c) (hb c)

theorem noParen_cons {c : Char} {t : Text} (h1 : c ≠ '(') (h2 : c ≠ ')') (ht : NoParen t) :
    NoParen (c :: t) := by
  intro x hx; rw [List.mem_cons] at hx
  rcases hx with rfl | hx
  · exact ⟨h1, h2⟩
  · exact ht x hx

theorem noParen_num {t : Text} (h : ∀ c ∈ t, isNumChar c = true) : NoParen t := by
  intro c hc
  have := h c hc
  constructor <;> rintro rfl <;> revert this <;> decide

theorem not_blank_of_numChar {c : Char} (h : isNumChar c = true) : c ≠ ' ' ∧ c ≠ '\t' ∧ c ≠ '\n' := by
  refine ⟨?_, ?_, ?_⟩ <;> rintro rfl <;> revert h <;> decide

theorem not_blank_of_letter {c : Char} (h : isLetter c = true) :
    c ≠ ' ' ∧ c ≠ '\t' ∧ c ≠ '\n' ∧ c ≠ '(' ∧ c ≠ ')' := by
  refine ⟨?_, ?_, ?_, ?_, ?_⟩ <;> rintro rfl <;> revert h <;> decide

theorem dropBlanks_append (a b : Text) : dropBlanks (a ++ b) = dropBlanks a ++ dropBlanks b := by
  simp [dropBlanks]

theorem dropBlanks_num {t : Text} (h : ∀ c ∈ t, isNumChar c = true) : dropBlanks t = t := by
  unfold dropBlanks
  rw [List.filter_eq_self]
  intro c hc
  have := not_blank_of_numChar (h c hc)
  simp [this.1, this.2.1]

theorem dropBlanks_word {w : Char × Text} (h : GoodWord w) :
    dropBlanks (w.1 :: w.2) = w.1 :: w.2 := by
  have h1 := not_blank_of_letter h.1
  have h2 := dropBlanks_num h.2.2
  unfold dropBlanks at *
  rw [List.filter_cons]
  simp [h1.1, h1.2.1] at h2 ⊢
  exact h2

theorem noParen_word {w : Char × Text} (h : GoodWord w) : NoParen (w.1 :: w.2) := by
  have h1 := not_blank_of_letter h.1
  exact noParen_cons h1.2.2.2.1 h1.2.2.2.2 (noParen_num h.2.2)

theorem readLine_eq {t : Text} {ws : List (Char × Text)} (hp : NoParen t)
    (hd : dropBlanks t = wordsText ws) (hw : ∀ w ∈ ws, GoodWord w) :
    readLine t = parseWords ws := by
  unfold readLine
  rw [stripComments_noParen hp]
  simp only [hd]
  rw [lexWords_wordsText ws hw]

/-! A line text made of words: `LineOf t ws` records everything `readLine_eq` needs, and composes. -/

/-- `t` is a one-line text whose words are `ws`. -/
structure LineOf (t : Text) (ws : List (Char × Text)) : Prop where
  np : NoParen t
  nl : '\n' ∉ t
  db : dropBlanks t = wordsText ws
  good : ∀ w ∈ ws, GoodWord w

theorem LineOf.nil : LineOf [] [] := ⟨by simp [NoParen], by simp, rfl, by simp⟩

theorem LineOf.space {t : Text} {ws} (h : LineOf t ws) : LineOf (' ' :: t) ws :=
  ⟨noParen_cons (by decide) (by decide) h.np, by simp [h.nl], by
    rw [← h.db]; simp [dropBlanks], h.good⟩

theorem LineOf.append {t u : Text} {ws vs} (h : LineOf t ws) (k : LineOf u vs) :
    LineOf (t ++ u) (ws ++ vs) :=
  ⟨noParen_append h.np k.np, by simp [h.nl, k.nl], by
    rw [dropBlanks_append, h.db, k.db]; simp [wordsText], by
    intro w hw; rw [List.mem_append] at hw; exact hw.elim (h.good w) (k.good w)⟩

theorem LineOf.word {w : Char × Text} (h : GoodWord w) : LineOf (w.1 :: w.2) [w] :=
  ⟨noParen_word h, by
    have h1 := not_blank_of_letter h.1
    rw [List.mem_cons, not_or]
    refine ⟨fun e => h1.2.2.1 e.symm, fun e => ?_⟩
    exact (not_blank_of_numChar (h.2.2 _ e)).2.2 rfl, by
    rw [dropBlanks_word h]; simp [wordsText], by simp [h]⟩

theorem LineOf.join {ls : List (Text × List (Char × Text))} (h : ∀ p ∈ ls, LineOf p.1 p.2) :
    LineOf (joinSpace (ls.map Prod.fst)) (ls.map Prod.snd).flatten := by
  induction ls with
  | nil => exact LineOf.nil
  | cons p ls ih =>
    rcases ls with _ | ⟨q, ls⟩
    · simpa [joinSpace] using h p (by simp)
    · have ih' := ih (fun x hx => h x (by simp [hx]))
      simp only [List.map_cons, joinSpace, List.flatten_cons] at ih' ⊢
      exact (h p (by simp)).append ih'.space

theorem LineOf.read {t : Text} {ws} (h : LineOf t ws) : readLine t = parseWords ws :=
  readLine_eq h.np h.db h.good

/-! ### lines of a text -/

theorem splitLines_ne_nil (t : Text) : splitLines t ≠ [] := by
  rcases t with _ | ⟨c, t⟩
  · simp [splitLines]
  · unfold splitLines
    split
    · simp
    · split <;> simp

theorem splitLines_single {t : Text} (h : '\n' ∉ t) : splitLines t = [t] := by
  induction t with
  | nil => rfl
  | cons c t ih =>
    have h1 : c ≠ '\n' := by rintro rfl; simp at h
    have h2 : '\n' ∉ t := by intro h'; exact h (by simp [h'])
    rw [splitLines, if_neg h1, ih h2]

theorem splitLines_append_nl (a b : Text) :
    splitLines (a ++ '\n' :: b) = splitLines a ++ splitLines b := by
  induction a with
  | nil => simp [splitLines]
  | cons c a ih =>
    by_cases h : c = '\n'
    · simp only [List.cons_append, splitLines, if_pos h, ih]
    · simp only [List.cons_append, splitLines, if_neg h, ih]
      rcases hs : splitLines a with _ | ⟨l, ls⟩
      · exact absurd hs (splitLines_ne_nil a)
      · simp

theorem runLines_append (m : Machine) (a b : List Text) :
    runLines m (a ++ b) =
      match runLines m a with
      | none => none
      | some (m1, e1) =>
        match runLines m1 b with
        | none => none
        | some (m2, e2) => some (m2, e1 ++ e2) := by
  induction a generalizing m with
  | nil => simp only [List.nil_append, runLines]; split <;> simp_all
  | cons l ls ih =>
    simp only [List.cons_append, runLines]
    rcases execLine m l with _ | ⟨m1, e1⟩
    · rfl
    · simp only [ih]
      rcases runLines m1 ls with _ | ⟨m2, e2⟩
      · rfl
      · simp only
        rcases runLines m2 b with _ | ⟨m3, e3⟩
        · rfl
        · simp

theorem runText_append_nl (m : Machine) (a b : Text) :
    runText m (a ++ '\n' :: b) =
      match runText m a with
      | none => none
      | some (m1, e1) =>
        match runText m1 b with
        | none => none
        | some (m2, e2) => some (m2, e1 ++ e2) := by
  unfold runText; rw [splitLines_append_nl, runLines_append]

theorem runText_trans {m m1 m2 : Machine} {a b : Text} {e1 e2 : List Event}
    (h1 : runText m a = some (m1, e1)) (h2 : runText m1 b = some (m2, e2)) :
    runText m (a ++ '\n' :: b) = some (m2, e1 ++ e2) := by
  rw [runText_append_nl, h1]; simp only [h2]

theorem runText_line {m : Machine} {t : Text} (h : '\n' ∉ t) : runText m t = execLine m t := by
  unfold runText
  rw [splitLines_single h]
  simp only [runLines]
  rcases execLine m t with _ | ⟨m1, e1⟩ <;> simp

theorem runText_nil (m : Machine) : runText m [] = some (m, []) := by
  rw [runText_line (by simp)]; rfl

/-- A line that is a comment does nothing. -/
theorem runText_comment (m : Machine) (t : Text) (hp : NoParen t) (hn : '\n' ∉ t) :
    runText m ('(' :: t ++ [')']) = some (m, []) := by
  have key : ∀ t : Text, NoParen t → stripComments true (t ++ [')']) = some [] := by
    intro t ht
    induction t with
    | nil => simp [stripComments]
    | cons c t ih =>
      have hc := ht c (by simp)
      rw [List.cons_append, stripComments, ih (fun x hx => ht x (by simp [hx]))]
      simp [hc.1, hc.2]
  rw [runText_line (by simp [hn])]
  have : readLine ('(' :: t ++ [')']) = some {} := by
    unfold readLine
    rw [List.cons_append, stripComments]
    simp only [Bool.false_eq_true, if_false, if_true, key t hp]
    rfl
  unfold execLine
  rw [this]
  simp

end CQ
