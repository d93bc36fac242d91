import Verif.Model.ParametrizedArgs
import Mathlib.Data.Nat.Digits.Defs
import Mathlib.Algebra.Order.Field.Rat
import Mathlib.Data.List.TakeWhile

/-!
# C119: arguments with parameters
-/

namespace PyNucleus.Props.C119

open PyNucleus.ParametrizedArgs

/-- The texts of a type: letters; digits with an optional sign; digits, a point and digits with an optional sign; the two words. -/
inductive Text : Ty → List Char → Prop
  | str (l : List Char) (h : ∀ c ∈ l, c.isAlpha = true) (hne : l ≠ []) : Text .str l
  | int (s l : List Char) (hs : s = [] ∨ s = ['+'] ∨ s = ['-']) (h : ∀ c ∈ l, c.isDigit = true) (hne : l ≠ []) : Text .int (s ++ l)
  | float (s l m : List Char) (hs : s = [] ∨ s = ['+'] ∨ s = ['-']) (h : ∀ c ∈ l, c.isDigit = true) (hne : l ≠ [])
      (hm : ∀ c ∈ m, c.isDigit = true) : Text .float (s ++ l ++ '.' :: m)
  | true : Text .bool ['T', 'r', 'u', 'e']
  | false : Text .bool ['F', 'a', 'l', 's', 'e']

/-- The text ends here: the next character is none of the ones of a field. -/
def Stop (r : List Char) : Prop := ∀ c, r.head? = some c → c.isAlpha = false ∧ c.isDigit = false ∧ c ≠ '.'

theorem take_stop (p : Char → Bool) (l r : List Char) (h : ∀ c ∈ l, p c = true) (hr : ∀ c, r.head? = some c → p c = false) :
    (l ++ r).takeWhile p = l ∧ (l ++ r).dropWhile p = r := by
  induction l with
  | nil =>
    cases r with
    | nil => simp
    | cons c r =>
      have := hr c rfl
      simp [this]
  | cons a l ih =>
    have ha := h a (by simp)
    have := ih fun c hc => h c (by simp [hc])
    simp [ha, this]

theorem sign_append (s l : List Char) (hs : s = [] ∨ s = ['+'] ∨ s = ['-']) (hl : ∀ c, l.head? = some c → c.isDigit = true) :
    sign (s ++ l) = (s, l) := by
  rcases hs with rfl | rfl | rfl
  · cases l with
    | nil => rfl
    | cons c l =>
      have := hl c rfl
      rw [List.nil_append]
      unfold sign
      split
      · rename_i h; simp at h; rw [h.1] at this; exact absurd this (by decide)
      · rename_i h; simp at h; rw [h.1] at this; exact absurd this (by decide)
      · rfl
  · rfl
  · rfl

theorem head_digits (l r : List Char) (h : ∀ c ∈ l, c.isDigit = true) (hne : l ≠ []) :
    ∀ c, (l ++ r).head? = some c → c.isDigit = true := by
  intro c hc
  cases l with
  | nil => exact absurd rfl hne
  | cons a l => simp at hc; subst hc; exact h a (by simp)

theorem field_text (t : Ty) (x r : List Char) (hx : Text t x) (hr : Stop r) : field t (x ++ r) = some (x, r) := by
  cases hx with
  | str l h hne =>
    obtain ⟨h1, h2⟩ := take_stop Char.isAlpha x r h fun c hc => (hr c hc).1
    unfold field
    dsimp only
    rw [h1, h2, if_neg hne]
  | int s l hs h hne =>
    obtain ⟨h1, h2⟩ := take_stop Char.isDigit l r h fun c hc => (hr c hc).2.1
    unfold field
    dsimp only
    rw [List.append_assoc, sign_append s (l ++ r) hs (head_digits l r h hne)]
    dsimp only
    rw [h1, h2, if_neg hne]
  | float s l m hs h hne hm =>
    obtain ⟨h1, h2⟩ := take_stop Char.isDigit l ('.' :: m ++ r) h fun c hc => by
      simp at hc; subst hc; decide
    obtain ⟨h3, h4⟩ := take_stop Char.isDigit m r hm fun c hc => (hr c hc).2.1
    unfold field
    dsimp only
    rw [List.append_assoc, List.append_assoc, sign_append s (l ++ ('.' :: m ++ r)) hs (head_digits l _ h hne)]
    dsimp only
    rw [h1, h2, if_neg hne]
    simp only [List.cons_append, h3, h4]
  | true => rfl
  | false => rfl

theorem skip_append (a x : List Char) (ha : ∀ c ∈ a, c.isWhitespace = true) (hx : ∀ c, x.head? = some c → c.isWhitespace = false) :
    skip (a ++ x) = x := (take_stop Char.isWhitespace a x ha hx).2

theorem white_cases (c : Char) (h : c.isWhitespace = true) : c = ' ' ∨ c = '\t' ∨ c = '\r' ∨ c = '\n' := by
  simpa [Char.isWhitespace, or_assoc] using h

theorem white_stop (b : List Char) (hb : ∀ c ∈ b, c.isWhitespace = true) (d : Char) (hd : d = ',' ∨ d = ')') (r : List Char) :
    Stop (b ++ d :: r) := by
  intro c hc
  cases b with
  | nil =>
    simp at hc; subst hc
    rcases hd with rfl | rfl <;> decide
  | cons e b =>
    simp at hc; subst hc
    rcases white_cases e (hb e (by simp)) with rfl | rfl | rfl | rfl <;> decide

theorem not_white_of_digit (c : Char) (h : c.isDigit = true) : c.isWhitespace = false := by
  by_contra hc
  rcases white_cases c (by simpa using hc) with rfl | rfl | rfl | rfl <;> exact absurd h (by decide)

theorem text_head (t : Ty) (x r : List Char) (hx : Text t x) : ∀ c, (x ++ r).head? = some c → c.isWhitespace = false := by
  intro c hc
  cases hx with
  | str l h hne =>
    cases x with
    | nil => exact absurd rfl hne
    | cons a x =>
      simp at hc; subst hc
      have := h a (by simp)
      by_contra hw
      rcases white_cases a (by simpa using hw) with rfl | rfl | rfl | rfl <;> exact absurd this (by decide)
  | int s l hs h hne =>
    rcases hs with rfl | rfl | rfl
    · exact not_white_of_digit c (head_digits l r h hne c (by simpa using hc))
    · simp at hc; subst hc; decide
    · simp at hc; subst hc; decide
  | float s l m hs h hne hm =>
    rcases hs with rfl | rfl | rfl
    · refine not_white_of_digit c (head_digits l ('.' :: m ++ r) h hne c (by simpa using hc))
    · simp at hc; subst hc; decide
    · simp at hc; subst hc; decide
  | true => simp at hc; subst hc; decide
  | false => simp at hc; subst hc; decide

/-- A parameter in an argument: its type, its text, and blanks before and after it. -/
structure Item where
  ty : Ty
  text : List Char
  before : List Char
  after : List Char

def Item.OK (i : Item) : Prop :=
  Text i.ty i.text ∧ (∀ c ∈ i.before, c.isWhitespace = true) ∧ ∀ c ∈ i.after, c.isWhitespace = true

def Item.written (i : Item) : List Char := i.before ++ (i.text ++ i.after)

/-- The parameters with commas between them. -/
def joined : List Item → List Char
  | [] => []
  | [i] => i.written
  | i :: j :: l => i.written ++ ',' :: joined (j :: l)

theorem fields_joined : ∀ (l : List Item) (_ : ∀ i ∈ l, i.OK) (r : List Char),
    (fields (l.map (·.ty)) (joined l ++ ')' :: r)).map Prod.fst = some (l.map (·.text))
  | [], _, r => rfl
  | [i], h, r => by
    obtain ⟨h1, h2, h3⟩ := h i (by simp)
    show ((field i.ty (skip (i.written ++ ')' :: r))).map fun q => ([q.1], skip q.2)).map Prod.fst = _
    unfold Item.written
    rw [List.append_assoc, skip_append _ _ h2 (by rw [List.append_assoc]; exact text_head _ _ _ h1), List.append_assoc,
      field_text _ _ _ h1 (white_stop _ h3 ')' (Or.inr rfl) r)]
    rfl
  | i :: j :: l, h, r => by
    obtain ⟨h1, h2, h3⟩ := h i (by simp)
    have ih := fields_joined (j :: l) (fun k hk => h k (by simp [List.mem_cons.1 hk])) r
    show ((field i.ty (skip ((i.written ++ ',' :: joined (j :: l)) ++ ')' :: r))).bind _).map Prod.fst = _
    unfold Item.written
    rw [List.append_assoc, List.append_assoc, skip_append _ _ h2 (by rw [List.append_assoc]; exact text_head _ _ _ h1), List.append_assoc,
      List.cons_append, field_text _ _ _ h1 (white_stop _ h3 ',' (Or.inl rfl) _), Option.bind_some]
    dsimp only
    rw [skip_append _ _ h3 (by intro c hc; simp at hc; subst hc; decide)]
    show Option.map Prod.fst (Option.map (fun q : List (List Char) × List Char => (i.text :: q.1, q.2))
      (fields (j.ty :: List.map (fun x => x.ty) l) (joined (j :: l) ++ ')' :: r))) = _
    rw [Option.map_map]
    have e : (Prod.fst ∘ fun q : List (List Char) × List Char => (i.text :: q.1, q.2)) = (fun g => i.text :: g) ∘ Prod.fst := rfl
    rw [e, ← Option.map_map]
    simp only [List.map_cons] at ih ⊢
    rw [ih]
    rfl

/-- An argument that is written with its name, parentheses and parameters of the right types is accepted, and each parameter is converted
by itself. -/
theorem written (name : List Char) (l : List Item) (h : ∀ i ∈ l, i.OK) (r : List Char) :
    matches' name (l.map (·.ty)) (name ++ '(' :: (joined l ++ ')' :: r)) = true ∧
    interpret name (l.map (·.ty)) (name ++ '(' :: (joined l ++ ')' :: r)) = some (l.map fun i => value i.ty i.text) := by
  have hg : groups name (l.map (·.ty)) (name ++ '(' :: (joined l ++ ')' :: r)) = some (l.map (·.text)) := by
    unfold groups
    rw [if_pos (by rw [List.isPrefixOf_iff_prefix]; exact List.prefix_append _ _), List.drop_left]
    exact fields_joined l h r
  unfold matches' interpret
  rw [hg]
  refine ⟨rfl, ?_⟩
  simp only [Option.map_some, Option.some.injEq]
  clear hg h
  induction l with
  | nil => rfl
  | cons i l ih => simp only [List.map_cons, List.zipWith_cons_cons, ih]

theorem number_ofDigits (l : List Char) : number l = Nat.ofDigits 10 (l.reverse.map digit) := by
  unfold number
  rw [← List.foldr_reverse]
  induction l.reverse with
  | nil => rfl
  | cons a l ih => rw [List.foldr_cons, ih, List.map_cons, Nat.ofDigits_cons]; omega

/-- The values of strings, integers and floating point numbers: the text, the number with the digits, the decimal fraction. -/
theorem values_partial (s l m : List Char) (hs : s = [] ∨ s = ['+'] ∨ s = ['-']) (hl : ∀ c ∈ l, c.isDigit = true) (hne : l ≠ []) :
    value .str l = .str l ∧
    value .int (s ++ l) = .int ((if s = ['-'] then -1 else 1) * (Nat.ofDigits 10 (l.reverse.map digit) : ℕ)) ∧
    value .float (s ++ l ++ '.' :: m) = .float ((if s = ['-'] then -1 else 1) *
      ((Nat.ofDigits 10 (l.reverse.map digit) : ℕ) + (Nat.ofDigits 10 (m.reverse.map digit) : ℕ) / ((10 ^ m.length : ℕ) : ℚ))) ∧
    value .bool ['T', 'r', 'u', 'e'] = .bool Bool.true := by
  refine ⟨rfl, ?_, ?_, rfl⟩
  · unfold value signed
    dsimp only
    rw [sign_append s l hs (by have := head_digits l [] hl hne; simpa using this)]
    dsimp only
    rw [number_ofDigits]
    split <;> simp
  · obtain ⟨h1, h2⟩ := take_stop Char.isDigit l ('.' :: m) hl fun c hc => by simp at hc; subst hc; decide
    unfold value signed
    dsimp only
    rw [List.append_assoc, sign_append s (l ++ '.' :: m) hs (head_digits l _ hl hne)]
    dsimp only
    rw [h1, h2, List.drop_one, List.tail_cons, number_ofDigits, number_ofDigits]
    split <;> simp

/-- The text `False` is accepted for a truth value and gives true. -/
theorem bool_fails (name : List Char) :
    interpret name [.bool] (name ++ ['(', 'F', 'a', 'l', 's', 'e', ')']) = some [.bool Bool.true] := by
  have h := (written name [⟨.bool, ['F', 'a', 'l', 's', 'e'], [], []⟩] (by
    intro i hi
    simp at hi
    subst hi
    exact ⟨Text.false, by simp, by simp⟩) []).2
  exact h

/-- What follows the fields is not looked at: a fraction is accepted as integer and cut off; a floating point number needs a point. -/
theorem rest_fails : interpret ['n'] [.int] ['n', '(', '3', '.', '7', ')'] = some [.int 3] ∧
    interpret ['n'] [.int] ['n', '(', '3', 'x', 'y'] = some [.int 3] ∧
    interpret ['n'] [.float] ['n', '(', '3', ')'] = none := by
  decide +kernel

/-- Values in the list and arguments that match are accepted unchanged, everything else is an error. -/
theorem accepted_iff (values : List (List Char)) (args : List (List Char × List Ty)) (v w : List Char) :
    accepted values args v = some w ↔ w = v ∧ (v ∈ values ∨ ∃ p ∈ args, (interpret p.1 p.2 v).isSome = Bool.true) := by
  have hm : args.any (fun p => matches' p.1 p.2 v) = Bool.true ↔ ∃ p ∈ args, (interpret p.1 p.2 v).isSome = Bool.true := by
    rw [List.any_eq_true]
    simp only [matches', interpret, Option.isSome_map]
  unfold accepted
  by_cases h1 : v ∈ values
  · rw [if_pos h1, Option.some.injEq]; exact ⟨fun e => ⟨e.symm, Or.inl h1⟩, fun e => e.1.symm⟩
  · rw [if_neg h1]
    by_cases h2 : args.any (fun p => matches' p.1 p.2 v) = Bool.true
    · rw [if_pos h2, Option.some.injEq]; exact ⟨fun e => ⟨e.symm, Or.inr (hm.1 h2)⟩, fun e => e.1.symm⟩
    · rw [if_neg h2]
      rw [hm] at h2
      simp [h1, h2]

/-- A string, a negative integer with blanks and a fraction. -/
theorem sample_case : interpret ['f'] [.str, .int, .float] ['f', '(', 'a', 'b', ',', ' ', '-', '1', '2', ' ', ',', '+', '0', '.', '2', '5', ')'] =
      some [.str ['a', 'b'], .int (-12), .float (1 / 4)] ∧
    (interpret ['f'] [.str, .int] ['f', '(', 'a', ',', 'b', ')']).isNone = Bool.true ∧
    accepted [['a']] [(['f'], [.int])] ['f', '(', '5', ')'] = some ['f', '(', '5', ')'] := by
  decide +kernel

end PyNucleus.Props.C119
