import Verif.NetSpec.Model

/-!
# What the patterns of `create_net_from_spec` match

The first match of each pattern, computed without backtracking.
-/

namespace Verif.NetSpec

/-- The preferred match from a position. -/
def Re.one (r : Re) (s : Pos) : Option Pos := (r.run s).head?

theorem head?_flatMap_total {α β : Type*} (l : List α) (f : α → List β) (hf : ∀ x, f x ≠ []) :
    (l.flatMap f).head? = l.head?.bind (fun x => (f x).head?) := by
  cases l with
  | nil => rfl
  | cons a r =>
    rw [List.flatMap_cons, List.head?_append]
    cases h : f a with
    | nil => exact absurd h (hf a)
    | cons b q => simp [h]

theorem one_seq (a b : Re) (hb : ∀ s, b.run s ≠ []) (s : Pos) : (Re.seq a b).one s = (a.one s).bind b.one :=
  head?_flatMap_total _ _ hb

theorem one_seq_single (a b : Re) (s t : Pos) (h : a.run s = [t]) : (Re.seq a b).one s = b.one t := by
  show ((a.run s).flatMap b.run).head? = _
  rw [h]
  simp [Re.one]

theorem run_seq_single (a b : Re) (s t : Pos) (h : a.run s = [t]) : (Re.seq a b).run s = b.run t := by
  show (a.run s).flatMap b.run = _
  rw [h]
  simp

theorem runStar_ne (f : Pos → List Pos) (n : Nat) (s : Pos) : runStar f n s ≠ [] := by
  cases n <;> simp [runStar]

theorem star_ne (a : Re) (s : Pos) : (Re.star a).run s ≠ [] := runStar_ne _ _ _

theorem opt_ne (a : Re) (s : Pos) : (Re.opt a).run s ≠ [] := by simp [Re.run]

theorem seq_ne (a b : Re) (ha : ∀ s, a.run s ≠ []) (hb : ∀ s, b.run s ≠ []) (s : Pos) : (Re.seq a b).run s ≠ [] := by
  show (a.run s).flatMap b.run ≠ []
  cases h : a.run s with
  | nil => exact absurd h (ha s)
  | cons t r =>
    rw [List.flatMap_cons]
    intro hc
    exact hb t (List.append_eq_nil_iff.1 hc).1

theorem cap_ne (n : Nat) (a : Re) (ha : ∀ s, a.run s ≠ []) (s : Pos) : (Re.cap n a).run s ≠ [] := by
  simp only [Re.run, ne_eq, List.map_eq_nil_iff]
  exact ha s

theorem runStar_none (f : Pos → List Pos) (n : Nat) (s : Pos) (h : f s = []) : runStar f n s = [s] := by
  cases n <;> simp [runStar, h]

theorem runStar_some (f : Pos → List Pos) (n : Nat) (s t : Pos) (h : (f s).head? = some t)
    (hl : t.rest.length < s.rest.length) : (runStar f (n + 1) s).head? = (runStar f n t).head? := by
  cases hf : f s with
  | nil => rw [hf] at h; simp at h
  | cons a r =>
    rw [hf] at h
    simp only [List.head?_cons, Option.some.injEq] at h
    subst h
    have : ((f s).filter (fun t => t.rest.length < s.rest.length)) =
        a :: r.filter (fun t => t.rest.length < s.rest.length) := by
      rw [hf, List.filter_cons]; simp [hl]
    rw [runStar, this, List.flatMap_cons]
    cases hr : runStar f n a with
    | nil => exact absurd hr (runStar_ne _ _ _)
    | cons b q => simp

/-- Repeating a character class takes all there are. -/
theorem runStar_chr (p : Char → Bool) (n : Nat) (s : Pos) (h : s.rest.length ≤ n) :
    (runStar (Re.chr p).run n s).head? = some ⟨s.rest.dropWhile p, s.caps⟩ := by
  induction n generalizing s with
  | zero =>
    obtain ⟨rest, caps⟩ := s
    have : rest = [] := List.length_eq_zero_iff.1 (Nat.le_zero.1 h)
    subst this
    rfl
  | succ n ih =>
    obtain ⟨rest, caps⟩ := s
    cases rest with
    | nil => rw [runStar_none _ _ _ rfl]; rfl
    | cons c r =>
      by_cases hc : p c = true
      · rw [runStar_some _ n _ ⟨r, caps⟩ (by simp [Re.run, hc]) (by simp), ih ⟨r, caps⟩ (by simpa using h)]
        simp [hc]
      · rw [runStar_none _ _ _ (by simp [Re.run, hc])]
        simp [hc]

theorem one_star_chr (p : Char → Bool) (s : Pos) : (Re.star (.chr p)).one s = some ⟨s.rest.dropWhile p, s.caps⟩ :=
  runStar_chr p _ s (Nat.le_refl _)

theorem run_star_chr_none (p : Char → Bool) (s : Pos) (h : ∀ c ∈ s.rest.head?, p c = false) :
    (Re.star (.chr p)).run s = [s] := by
  refine runStar_none _ _ _ ?_
  obtain ⟨rest, caps⟩ := s
  cases rest with
  | nil => rfl
  | cons c r => simp [Re.run, h c (by simp)]

theorem run_chr_some (p : Char → Bool) (c : Char) (r : List Char) (caps) (h : p c = true) :
    (Re.chr p).run ⟨c :: r, caps⟩ = [⟨r, caps⟩] := by simp [Re.run, h]

theorem run_chr_none (p : Char → Bool) (s : Pos) (h : ∀ c ∈ s.rest.head?, p c = false) : (Re.chr p).run s = [] := by
  obtain ⟨rest, caps⟩ := s
  cases rest with
  | nil => rfl
  | cons c r => simp [Re.run, h c (by simp)]

theorem run_opt_none (p : Char → Bool) (s : Pos) (h : ∀ c ∈ s.rest.head?, p c = false) : (Re.opt (.chr p)).run s = [s] := by
  simp only [Re.run]
  have := run_chr_none p s h
  simp only [Re.run] at this
  rw [this]; rfl

theorem one_opt_chr (p : Char → Bool) (s : Pos) :
    (Re.opt (.chr p)).one s = some (match s.rest with
      | [] => s
      | c :: r => if p c then ⟨r, s.caps⟩ else s) := by
  obtain ⟨rest, caps⟩ := s
  cases rest with
  | nil => rfl
  | cons c r => by_cases hc : p c = true <;> simp [Re.one, Re.run, hc]

theorem run_seq_nil (a b : Re) (s : Pos) (h : ∀ t ∈ a.run s, b.run t = []) : (Re.seq a b).run s = [] := by
  show (a.run s).flatMap b.run = []
  rw [List.flatMap_eq_nil_iff]
  exact h

/-! ## Numbers -/

/-- Repeating a character class: fewer repetitions leave more. -/
theorem runStar_chr_cons (p : Char → Bool) (n : Nat) (c : Char) (r : List Char) (caps) (hc : p c = true) :
    runStar (Re.chr p).run (n + 1) ⟨c :: r, caps⟩ = runStar (Re.chr p).run n ⟨r, caps⟩ ++ [⟨c :: r, caps⟩] := by
  simp [runStar, Re.run, hc]

/-- The end of an integer: from the last digits, everything is read. -/
theorem digits_then (k : Re) (ds rest : List Char) (caps) (n : Nat) (hds : ds.all isDigit)
    (hne : ds ≠ []) (hrest : ∀ c ∈ rest.head?, isDigit c = false) (hk : k.run ⟨rest, caps⟩ = []) (t : Pos)
    (hn : ds.length ≤ n)
    (hk1 : ∀ d, isDigit d = true → (k.run ⟨d :: rest, caps⟩).head? = some t) :
    ((runStar (Re.chr isDigit).run n ⟨ds ++ rest, caps⟩).flatMap k.run).head? = some t := by
  induction ds generalizing n with
  | nil => exact absurd rfl hne
  | cons d r ih =>
    simp only [List.all_cons, Bool.and_eq_true] at hds
    cases n with
    | zero => simp at hn
    | succ n =>
      rw [List.cons_append, runStar_chr_cons _ _ _ _ _ hds.1, List.flatMap_append, List.head?_append]
      by_cases hr : r = []
      · subst hr
        have : runStar (Re.chr isDigit).run n ⟨[] ++ rest, caps⟩ = [⟨rest, caps⟩] :=
          runStar_none _ _ _ (run_chr_none _ _ hrest)
        rw [this]
        simp only [List.flatMap_cons, List.flatMap_nil, List.append_nil, hk, List.head?_nil, Option.none_or]
        exact hk1 d hds.1
      · rw [ih n hds.2 hr (by simpa using hn)]
        rfl

theorem spaces_none (s : Pos) (h : ∀ c ∈ s.rest.head?, isSpace c = false) : reSpaces.run s = [s] := run_star_chr_none _ _ h

theorem spaces_ne (s : Pos) : reSpaces.run s ≠ [] := star_ne _ _

theorem dropWhile_head (p : Char → Bool) (l : List Char) : ∀ c ∈ (l.dropWhile p).head?, p c = false := by
  induction l with
  | nil => intro c h; simp at h
  | cons a r ih =>
    intro c h
    by_cases ha : p a = true
    · rw [List.dropWhile_cons_of_pos ha] at h; exact ih c h
    · rw [List.dropWhile_cons_of_neg ha] at h
      simp only [List.head?_cons, Option.mem_def, Option.some.injEq] at h
      subst h; simpa using ha

theorem dropWhile_append_all (p : Char → Bool) (a b : List Char) (ha : a.all p) : (a ++ b).dropWhile p = b.dropWhile p := by
  induction a with
  | nil => rfl
  | cons c r ih =>
    simp only [List.all_cons, Bool.and_eq_true] at ha
    rw [List.cons_append, List.dropWhile_cons_of_pos ha.1, ih ha.2]

theorem dropWhile_none (p : Char → Bool) (l : List Char) (h : ∀ c ∈ l.head?, p c = false) : l.dropWhile p = l := by
  cases l with
  | nil => rfl
  | cons c r => rw [List.dropWhile_cons_of_neg (by rw [h c (by simp)]; simp)]

/-- What follows the digits of a number: digits and white space. -/
theorem plus_digits (ds rest : List Char) (caps) (hds : ds.all isDigit) (hne : ds ≠ [])
    (hrest : ∀ c ∈ rest.head?, isDigit c = false) :
    (Re.seq (.plus (.chr isDigit)) reSpaces).one ⟨ds ++ rest, caps⟩ = some ⟨rest.dropWhile isSpace, caps⟩ := by
  rw [one_seq _ _ spaces_ne]
  have : (Re.plus (.chr isDigit)).one ⟨ds ++ rest, caps⟩ = some ⟨rest, caps⟩ := by
    cases ds with
    | nil => exact absurd rfl hne
    | cons d r =>
      simp only [List.all_cons, Bool.and_eq_true] at hds
      rw [Re.plus, List.cons_append, one_seq_single _ _ _ ⟨r ++ rest, caps⟩ (run_chr_some _ _ _ _ hds.1), one_star_chr]
      simp only
      rw [dropWhile_append_all _ _ _ hds.2, dropWhile_none _ _ hrest]
  rw [this]
  exact one_star_chr _ _

theorem plus_digits_none (s : Pos) (h : ∀ c ∈ s.rest.head?, isDigit c = false) :
    (Re.seq (.plus (.chr isDigit)) reSpaces).run s = [] := by
  refine run_seq_nil _ _ _ ?_
  intro t ht
  rw [Re.plus, run_seq_nil _ _ _ (by intro u hu; rw [run_chr_none _ _ h] at hu; simp at hu)] at ht
  simp at ht

/-! ### Characters -/

theorem digit_not_space {c : Char} (h : isDigit c = true) : isSpace c = false := by
  simp only [isDigit, Bool.and_eq_true, decide_eq_true_eq] at h
  simp only [isSpace, Bool.or_eq_false_iff, beq_eq_false_iff_ne]
  refine ⟨⟨⟨⟨⟨?_, ?_⟩, ?_⟩, ?_⟩, ?_⟩, ?_⟩ <;> (rintro rfl; exact absurd h.1 (by decide))

theorem digit_not_sign {c : Char} (h : isDigit c = true) : isSign c = false := by
  simp only [isDigit, Bool.and_eq_true, decide_eq_true_eq] at h
  simp only [isSign, Bool.or_eq_false_iff, beq_eq_false_iff_ne]
  refine ⟨?_, ?_⟩ <;> (rintro rfl; exact absurd h.1 (by decide))

theorem digit_not_dot {c : Char} (h : isDigit c = true) : isDot c = false := by
  simp only [isDigit, Bool.and_eq_true, decide_eq_true_eq] at h
  simp only [isDot, beq_eq_false_iff_ne]
  rintro rfl; exact absurd h.1 (by decide)

theorem digit_not_sep {c : Char} (h : isDigit c = true) : isSep c = false := by
  simp only [isDigit, Bool.and_eq_true, decide_eq_true_eq] at h
  simp only [isSep, Bool.or_eq_false_iff, beq_eq_false_iff_ne]
  refine ⟨⟨?_, ?_⟩, ?_⟩
  · rintro rfl; exact absurd h.2 (by decide)
  · rintro rfl; exact absurd h.1 (by decide)
  · rintro rfl; exact absurd h.2 (by decide)

theorem digit_not_lower {c : Char} (h : isDigit c = true) : isLower c = false := by
  simp only [isDigit, Bool.and_eq_true, decide_eq_true_eq] at h
  simp only [isLower, Bool.and_eq_false_iff, decide_eq_false_iff_not]
  left
  intro hc
  exact absurd (Char.le_trans hc h.2) (by decide)

theorem digit_not_upper {c : Char} (h : isDigit c = true) : isUpper c = false := by
  simp only [isDigit, Bool.and_eq_true, decide_eq_true_eq] at h
  simp only [isUpper, Bool.and_eq_false_iff, decide_eq_false_iff_not]
  left
  intro hc
  exact absurd (Char.le_trans hc h.2) (by decide)

theorem lower_not_space {c : Char} (h : isLower c = true) : isSpace c = false := by
  simp only [isLower, Bool.and_eq_true, decide_eq_true_eq] at h
  simp only [isSpace, Bool.or_eq_false_iff, beq_eq_false_iff_ne]
  refine ⟨⟨⟨⟨⟨?_, ?_⟩, ?_⟩, ?_⟩, ?_⟩, ?_⟩ <;> (rintro rfl; exact absurd h.1 (by decide))

theorem lower_not_sep {c : Char} (h : isLower c = true) : isSep c = false := by
  simp only [isLower, Bool.and_eq_true, decide_eq_true_eq] at h
  simp only [isSep, Bool.or_eq_false_iff, beq_eq_false_iff_ne]
  refine ⟨⟨?_, ?_⟩, ?_⟩
  · rintro rfl; exact absurd h.1 (by decide)
  · rintro rfl; exact absurd h.1 (by decide)
  · rintro rfl; exact absurd h.2 (by decide)

theorem lower_not_digit {c : Char} (h : isLower c = true) : isDigit c = false := by
  cases hd : isDigit c with
  | false => rfl
  | true => rw [digit_not_lower hd] at h; exact absurd h (by decide)

theorem lower_not_upper {c : Char} (h : isLower c = true) : isUpper c = false := by
  simp only [isLower, Bool.and_eq_true, decide_eq_true_eq] at h
  simp only [isUpper, Bool.and_eq_false_iff, decide_eq_false_iff_not]
  right
  intro hc
  exact absurd (Char.le_trans h.1 hc) (by decide)

theorem lower_not_dot {c : Char} (h : isLower c = true) : isDot c = false := by
  simp only [isLower, Bool.and_eq_true, decide_eq_true_eq] at h
  simp only [isDot, beq_eq_false_iff_ne]
  rintro rfl; exact absurd h.1 (by decide)

theorem upper_not_space {c : Char} (h : isUpper c = true) : isSpace c = false := by
  simp only [isUpper, Bool.and_eq_true, decide_eq_true_eq] at h
  simp only [isSpace, Bool.or_eq_false_iff, beq_eq_false_iff_ne]
  refine ⟨⟨⟨⟨⟨?_, ?_⟩, ?_⟩, ?_⟩, ?_⟩, ?_⟩ <;> (rintro rfl; exact absurd h.1 (by decide))

theorem upper_not_sep {c : Char} (h : isUpper c = true) : isSep c = false := by
  simp only [isUpper, Bool.and_eq_true, decide_eq_true_eq] at h
  simp only [isSep, Bool.or_eq_false_iff, beq_eq_false_iff_ne]
  refine ⟨⟨?_, ?_⟩, ?_⟩
  · rintro rfl; exact absurd h.1 (by decide)
  · rintro rfl; exact absurd h.1 (by decide)
  · rintro rfl; exact absurd h.2 (by decide)

theorem upper_not_sign {c : Char} (h : isUpper c = true) : isSign c = false := by
  simp only [isUpper, Bool.and_eq_true, decide_eq_true_eq] at h
  simp only [isSign, Bool.or_eq_false_iff, beq_eq_false_iff_ne]
  refine ⟨?_, ?_⟩ <;> (rintro rfl; exact absurd h.1 (by decide))

theorem upper_not_dot {c : Char} (h : isUpper c = true) : isDot c = false := by
  simp only [isUpper, Bool.and_eq_true, decide_eq_true_eq] at h
  simp only [isDot, beq_eq_false_iff_ne]
  rintro rfl; exact absurd h.1 (by decide)

theorem upper_not_digit {c : Char} (h : isUpper c = true) : isDigit c = false := by
  cases hd : isDigit c with
  | false => rfl
  | true => rw [digit_not_upper hd] at h; exact absurd h (by decide)

theorem upper_not_lower {c : Char} (h : isUpper c = true) : isLower c = false := by
  cases hd : isLower c with
  | false => rfl
  | true => rw [lower_not_upper hd] at h; exact absurd h (by decide)

theorem space_cases {c : Char} (h : isSpace c = true) :
    isUpper c = false ∧ isLower c = false ∧ isDigit c = false ∧ isDot c = false := by
  simp only [isSpace, Bool.or_eq_true, beq_iff_eq] at h
  rcases h with ((((rfl | rfl) | rfl) | rfl) | rfl) | rfl <;> decide

theorem sep_cases {c : Char} (h : isSep c = true) :
    isUpper c = false ∧ isLower c = false ∧ isDigit c = false ∧ isDot c = false ∧ isSpace c = false := by
  simp only [isSep, Bool.or_eq_true, beq_iff_eq] at h
  rcases h with (rfl | rfl) | rfl <;> decide

/-! ### `FLOAT` -/

theorem float_int (ds rest : List Char) (caps) (hds : ds.all isDigit) (hne : ds ≠ [])
    (hd : ∀ c ∈ rest.head?, isDigit c = false ∧ isDot c = false) :
    reFloat.one ⟨ds ++ rest, caps⟩ = some ⟨rest.dropWhile isSpace, caps⟩ := by
  obtain ⟨d, r, rfl⟩ : ∃ d r, ds = d :: r := by
    cases ds with
    | nil => exact absurd rfl hne
    | cons d r => exact ⟨d, r, rfl⟩
  have hdd : isDigit d = true := by simp only [List.all_cons, Bool.and_eq_true] at hds; exact hds.1
  rw [reFloat, one_seq_single _ _ _ _ (spaces_none _ (by simpa using digit_not_space hdd)),
    one_seq_single _ _ _ _ (run_opt_none isSign _ (by simpa using digit_not_sign hdd))]
  refine digits_then _ (d :: r) rest caps _ hds hne (fun c hc => (hd c hc).1) ?_ _ (by simp) ?_
  · rw [run_seq_single _ _ _ _ (run_opt_none isDot _ (fun c hc => (hd c hc).2))]
    exact plus_digits_none _ (fun c hc => (hd c hc).1)
  · intro e he
    rw [run_seq_single _ _ _ _ (run_opt_none isDot _ (by simpa using digit_not_dot he))]
    exact plus_digits [e] rest caps (by simpa using he) (by simp) (fun c hc => (hd c hc).1)

theorem float_dec (a b rest : List Char) (caps) (ha : a.all isDigit) (hb : b.all isDigit) (hne : b ≠ [])
    (hd : ∀ c ∈ rest.head?, isDigit c = false) :
    reFloat.one ⟨a ++ '.' :: (b ++ rest), caps⟩ = some ⟨rest.dropWhile isSpace, caps⟩ := by
  have h0 : ∀ c ∈ (a ++ '.' :: (b ++ rest)).head?, isSpace c = false ∧ isSign c = false := by
    cases a with
    | nil => simp; decide
    | cons d r =>
      simp only [List.all_cons, Bool.and_eq_true] at ha
      simpa using ⟨digit_not_space ha.1, digit_not_sign ha.1⟩
  have htail : ((Re.opt (.chr isDot)).seq ((Re.plus (.chr isDigit)).seq reSpaces)).one ⟨'.' :: (b ++ rest), caps⟩ =
      some ⟨rest.dropWhile isSpace, caps⟩ := by
    show (((Re.opt (.chr isDot)).run ⟨'.' :: (b ++ rest), caps⟩).flatMap _).head? = _
    have : (Re.opt (.chr isDot)).run ⟨'.' :: (b ++ rest), caps⟩ = [⟨b ++ rest, caps⟩, ⟨'.' :: (b ++ rest), caps⟩] := by
      simp [Re.run, isDot]
    rw [this, List.flatMap_cons, List.head?_append]
    have := plus_digits b rest caps hb hne hd
    rw [Re.one] at this
    rw [this]
    rfl
  rw [reFloat, one_seq_single _ _ _ _ (spaces_none _ (fun c hc => (h0 c hc).1)),
    one_seq_single _ _ _ _ (run_opt_none isSign _ (fun c hc => (h0 c hc).2))]
  show (((Re.star (.chr isDigit)).run _).flatMap _).head? = _
  have hone := one_star_chr isDigit ⟨a ++ '.' :: (b ++ rest), caps⟩
  simp only at hone
  rw [dropWhile_append_all _ _ _ ha, dropWhile_none _ _ (by simp; decide)] at hone
  cases hr : (Re.star (.chr isDigit)).run ⟨a ++ '.' :: (b ++ rest), caps⟩ with
  | nil => rw [Re.one, hr] at hone; simp at hone
  | cons t q =>
    rw [Re.one, hr] at hone
    simp only [List.head?_cons, Option.some.injEq] at hone
    subst hone
    rw [List.flatMap_cons, List.head?_append]
    rw [Re.one] at htail
    rw [htail]
    rfl

theorem float_none (s : Pos) (h : ∀ c ∈ s.rest.head?, isUpper c = true) : reFloat.run s = [] := by
  rw [reFloat, run_seq_single _ _ _ _ (spaces_none _ (fun c hc => upper_not_space (h c hc))),
    run_seq_single _ _ _ _ (run_opt_none isSign _ (fun c hc => upper_not_sign (h c hc))),
    run_seq_single _ _ _ _ (run_star_chr_none isDigit _ (fun c hc => upper_not_digit (h c hc))),
    run_seq_single _ _ _ _ (run_opt_none isDot _ (fun c hc => upper_not_dot (h c hc)))]
  exact plus_digits_none _ (fun c hc => upper_not_digit (h c hc))

/-! ## Arguments -/

/-- The text behind white space, a separator and white space. -/
def afterGap (text : List Char) : List Char :=
  match text.dropWhile isSpace with
  | [] => []
  | c :: r => if isSep c then r.dropWhile isSpace else c :: r

theorem one_gap (s : Pos) : (Re.seq reSpaces (.seq (.opt (.chr isSep)) reSpaces)).one s = some ⟨afterGap s.rest, s.caps⟩ := by
  rw [one_seq _ _ (seq_ne _ _ (opt_ne _) spaces_ne), reSpaces, one_star_chr]
  simp only [Option.bind_some]
  rw [one_seq _ _ (star_ne _), one_opt_chr]
  simp only [Option.bind_some, one_star_chr, afterGap]
  have hh := dropWhile_head isSpace s.rest
  cases h : s.rest.dropWhile isSpace with
  | nil => simp
  | cons c r =>
    rw [h] at hh
    by_cases hc : isSep c = true
    · simp [hc]
    · have := hh c (by simp)
      simp [hc, this]

theorem one_cap (n : Nat) (a : Re) (s t : Pos) (h : a.one s = some t) :
    (Re.cap n a).one s = some ⟨t.rest, (n, s.rest.take (s.rest.length - t.rest.length)) :: t.caps⟩ := by
  rw [Re.one] at h ⊢
  simp only [Re.run, List.head?_map, h, Option.map_some]

theorem one_alt_left (a b : Re) (s t : Pos) (h : a.one s = some t) : (Re.alt a b).one s = some t := by
  rw [Re.one] at h ⊢
  rw [Re.run, List.head?_append, h]; rfl

theorem one_alt_right (a b : Re) (s : Pos) (h : a.run s = []) : (Re.alt a b).one s = b.one s := by
  rw [Re.one, Re.run, h]; rfl

theorem gap_ne (s : Pos) : (Re.seq reSpaces (.seq (.opt (.chr isSep)) reSpaces)).run s ≠ [] :=
  seq_ne _ _ spaces_ne (seq_ne _ _ (opt_ne _) spaces_ne) s

theorem arg_lower (c : Char) (rest : List Char) (caps) (hc : isLower c = true) :
    reArg.one ⟨c :: rest, caps⟩ = some ⟨afterGap rest, (2, [c]) :: caps⟩ := by
  have h1 : (Re.alt (.chr isLower) reFloat).one ⟨c :: rest, caps⟩ = some ⟨rest, caps⟩ :=
    one_alt_left _ _ _ _ (by rw [Re.one, run_chr_some _ _ _ _ hc]; rfl)
  rw [reArg, one_seq_single _ _ _ _ (spaces_none _ (by simpa using lower_not_space hc)),
    one_seq _ _ gap_ne, one_cap _ _ _ _ h1]
  simp only [Option.bind_some, one_gap, List.length_cons, Nat.add_sub_cancel_left]
  simp

theorem afterGap_dropWhile (l : List Char) : afterGap (l.dropWhile isSpace) = afterGap l := by
  rw [afterGap, dropWhile_none _ _ (dropWhile_head isSpace l)]
  rfl

theorem take_dropWhile (p : Char → Bool) (l : List Char) : l.take (l.length - (l.dropWhile p).length) = l.takeWhile p := by
  induction l with
  | nil => rfl
  | cons c r ih =>
    by_cases hc : p c = true
    · have hle : (r.dropWhile p).length ≤ r.length := (List.dropWhile_sublist p).length_le
      rw [List.dropWhile_cons_of_pos hc, List.takeWhile_cons_of_pos hc, List.length_cons, Nat.sub_add_comm hle,
        List.take_succ_cons, ih]
    · rw [List.dropWhile_cons_of_neg hc, List.takeWhile_cons_of_neg hc, Nat.sub_self, List.take_zero]

theorem take_number (w rest : List Char) :
    (w ++ rest).take ((w ++ rest).length - (rest.dropWhile isSpace).length) = w ++ rest.takeWhile isSpace := by
  have hle : (rest.dropWhile isSpace).length ≤ rest.length := (List.dropWhile_sublist _).length_le
  rw [List.length_append, Nat.add_sub_assoc hle, List.take_length_add_append, take_dropWhile]

theorem arg_number (w rest : List Char) (caps) (hw : ∀ c ∈ (w ++ rest).head?, isSpace c = false ∧ isLower c = false)
    (hf : reFloat.one ⟨w ++ rest, caps⟩ = some ⟨rest.dropWhile isSpace, caps⟩) :
    reArg.one ⟨w ++ rest, caps⟩ = some ⟨afterGap rest, (2, w ++ rest.takeWhile isSpace) :: caps⟩ := by
  have h1 : (Re.alt (.chr isLower) reFloat).one ⟨w ++ rest, caps⟩ = some ⟨rest.dropWhile isSpace, caps⟩ := by
    rw [one_alt_right _ _ _ (run_chr_none _ _ (fun c hc => (hw c hc).2)), hf]
  rw [reArg, one_seq_single _ _ _ _ (spaces_none _ (fun c hc => (hw c hc).1)),
    one_seq _ _ gap_ne, one_cap _ _ _ _ h1]
  simp only [Option.bind_some, one_gap, take_number, afterGap_dropWhile]

theorem arg_none (s : Pos) (h : ∀ c ∈ s.rest.head?, isUpper c = true) : reArg.run s = [] := by
  rw [reArg, run_seq_single _ _ _ _ (spaces_none _ (fun c hc => upper_not_space (h c hc)))]
  refine run_seq_nil _ _ _ ?_
  intro t ht
  simp only [Re.run, List.mem_map, List.mem_append] at ht
  obtain ⟨u, hu | hu, -⟩ := ht
  · have := run_chr_none isLower s (fun c hc => upper_not_lower (h c hc))
    simp only [Re.run] at this
    rw [this] at hu; simp at hu
  · rw [float_none s h] at hu; simp at hu

end Verif.NetSpec
