import Verif.NetSpec.Scan
import Verif.NetSpec.Spec

/-!
# Reading back what was written
-/

namespace Verif.NetSpec

/-! ## Words -/

theorem word_head (w : Word) (hw : w.Ok) (rest : List Char) :
    ∃ c r, w.text ++ rest = c :: r ∧ isSpace c = false ∧ isSep c = false ∧ isUpper c = false ∧
      (w.IsNumber → isLower c = false) := by
  cases w with
  | letter c =>
    refine ⟨c, rest, rfl, lower_not_space hw, lower_not_sep hw, lower_not_upper hw, fun h => absurd h (by simp [Word.IsNumber])⟩
  | int ds =>
    cases ds with
    | nil => exact absurd rfl hw.2
    | cons d r =>
      have hd : isDigit d = true := by have := hw.1; simp only [List.all_cons, Bool.and_eq_true] at this; exact this.1
      exact ⟨d, r ++ rest, rfl, digit_not_space hd, digit_not_sep hd, digit_not_upper hd, fun _ => digit_not_lower hd⟩
  | dec a b =>
    cases a with
    | nil => exact ⟨'.', b ++ rest, rfl, by decide, by decide, by decide, fun _ => by decide⟩
    | cons d r =>
      have hd : isDigit d = true := by have := hw.1; simp only [List.all_cons, Bool.and_eq_true] at this; exact this.1
      refine ⟨d, (r ++ '.' :: b) ++ rest, rfl, digit_not_space hd, digit_not_sep hd, digit_not_upper hd, fun _ => digit_not_lower hd⟩

theorem afterGap_of (g g' rest : List Char) (sep : Option Char) (hg : g.all isSpace = true)
    (hs : ∀ c ∈ sep, isSep c = true) (hg' : g'.all isSpace = true)
    (hr : ∀ c ∈ rest.head?, isSpace c = false ∧ isSep c = false) :
    afterGap (g ++ (sep.toList ++ g') ++ rest) = rest := by
  have hsp : rest.dropWhile isSpace = rest := dropWhile_none _ _ (fun c hc => (hr c hc).1)
  rw [afterGap, List.append_assoc, dropWhile_append_all _ _ _ hg]
  cases sep with
  | none =>
    simp only [Option.toList_none, List.nil_append]
    rw [dropWhile_append_all _ _ _ hg', hsp]
    cases rest with
    | nil => rfl
    | cons c r => simp [(hr c (by simp)).2]
  | some c =>
    have hc := hs c rfl
    simp only [Option.toList_some, List.cons_append, List.nil_append]
    rw [List.dropWhile_cons_of_neg (by simp [(sep_cases hc).2.2.2.2])]
    simp only [hc, if_true]
    rw [dropWhile_append_all _ _ _ hg', hsp]

/-- What comes behind a number is neither a digit nor a decimal point. -/
theorem after_number (a : Written) (ha : a.Ok) (rest : List Char)
    (hr : a.after = [] → ∀ c ∈ rest.head?, isDigit c = false ∧ isDot c = false) :
    ∀ c ∈ (a.after ++ rest).head?, isDigit c = false ∧ isDot c = false := by
  obtain ⟨w, g, sep, g'⟩ := a
  obtain ⟨-, hg, hs, hg'⟩ := ha
  simp only [Written.after] at *
  cases g with
  | cons c r =>
    simp only [List.all_cons, Bool.and_eq_true] at hg
    have := space_cases hg.1
    simpa using ⟨this.2.2.1, this.2.2.2⟩
  | nil =>
    cases sep with
    | some c =>
      have := sep_cases (hs c rfl)
      simpa using ⟨this.2.2.1, this.2.2.2.1⟩
    | none =>
      cases g' with
      | cons c r =>
        simp only [List.all_cons, Bool.and_eq_true] at hg'
        have := space_cases hg'.1
        simpa using ⟨this.2.2.1, this.2.2.2⟩
      | nil => simpa using hr rfl

theorem takeWhile_all (p : Char → Bool) (l : List Char) : (l.takeWhile p).all p = true := by
  induction l with
  | nil => rfl
  | cons c r ih => by_cases hc : p c = true <;> simp [hc]

/-- One written argument is read as one argument. -/
theorem arg_written (a : Written) (ha : a.Ok) (rest : List Char) (caps)
    (hr : ∀ c ∈ rest.head?, isSpace c = false ∧ isSep c = false)
    (hn : a.word.IsNumber → a.after = [] → ∀ c ∈ rest.head?, isDigit c = false ∧ isDot c = false) :
    ∃ g, g.all isSpace = true ∧ (a.word.IsNumber ∨ g = []) ∧
      reArg.one ⟨a.text ++ rest, caps⟩ = some ⟨rest, (2, a.word.text ++ g) :: caps⟩ := by
  have hgap : afterGap (a.after ++ rest) = rest := afterGap_of _ _ _ _ ha.2.1 ha.2.2.1 ha.2.2.2 hr
  have hhead := word_head a.word ha.1 (a.after ++ rest)
  rw [Written.text, List.append_assoc]
  cases hw : a.word with
  | letter c =>
    have hc : isLower c = true := by have := ha.1; rw [hw] at this; exact this
    refine ⟨[], rfl, Or.inr rfl, ?_⟩
    have := arg_lower c (a.after ++ rest) caps hc
    rw [hgap] at this
    simpa [Word.text] using this
  | int ds =>
    have hok := ha.1
    rw [hw] at hok hhead hn
    obtain ⟨c, r, hcr, h1, -, -, h4⟩ := hhead
    refine ⟨(a.after ++ rest).takeWhile isSpace, takeWhile_all _ _, Or.inl trivial, ?_⟩
    have := arg_number ds (a.after ++ rest) caps
      (by intro x hx; rw [show ds ++ (a.after ++ rest) = c :: r from hcr] at hx
          simp only [List.head?_cons, Option.mem_def, Option.some.injEq] at hx
          subst hx; exact ⟨h1, h4 trivial⟩)
      (float_int ds _ caps hok.1 hok.2 (after_number a ha rest (hn trivial)))
    rw [hgap] at this
    exact this
  | dec x y =>
    have hok := ha.1
    rw [hw] at hok hhead hn
    obtain ⟨c, r, hcr, h1, -, -, h4⟩ := hhead
    refine ⟨(a.after ++ rest).takeWhile isSpace, takeWhile_all _ _, Or.inl trivial, ?_⟩
    have hf := float_dec x y (a.after ++ rest) caps hok.1 hok.2.1 hok.2.2 (fun c hc => (after_number a ha rest (hn trivial) c hc).1)
    have := arg_number (x ++ '.' :: y) (a.after ++ rest) caps
      (by intro z hz; rw [show (x ++ '.' :: y) ++ (a.after ++ rest) = c :: r from hcr] at hz
          simp only [List.head?_cons, Option.mem_def, Option.some.injEq] at hz
          subst hz; exact ⟨h1, h4 trivial⟩)
      (by rw [List.append_assoc, List.cons_append]; exact hf)
    rw [hgap] at this
    exact this

/-! ## Values -/

theorem strip_of (w g : List Char) (hne : w ≠ []) (hh : ∀ c ∈ w.head?, isSpace c = false)
    (hl : ∀ c ∈ w.getLast?, isSpace c = false) (hg : g.all isSpace = true) : strip (w ++ g) = w := by
  have h1 : (w ++ g).dropWhile isSpace = w ++ g := by
    refine dropWhile_none _ _ ?_
    cases w with
    | nil => exact absurd rfl hne
    | cons c r => simpa using hh
  rw [strip, h1, List.reverse_append, dropWhile_append_all _ _ _ (by simpa using hg),
    dropWhile_none _ _ (by simpa using hl), List.reverse_reverse]

theorem signOf_of (w : List Char) (h : ∀ c ∈ w.head?, isSign c = false) : signOf w = (1, w) := by
  cases w with
  | nil => rfl
  | cons c r =>
    have := h c (by simp)
    simp only [isSign, Bool.or_eq_false_iff, beq_eq_false_iff_ne] at this
    unfold signOf
    split
    · rename_i heq; exact absurd (List.cons.inj heq).1 this.1
    · rename_i heq; exact absurd (List.cons.inj heq).1 this.2
    · rfl

theorem all_getLast (p : Char → Bool) (l : List Char) (h : l.all p = true) : ∀ c ∈ l.getLast?, p c = true := by
  intro c hc
  exact List.all_eq_true.1 h c (List.mem_of_getLast? hc)

theorem tryNumber_int (ds g : List Char) (hds : ds.all isDigit = true) (hne : ds ≠ []) (hg : g.all isSpace = true) :
    tryNumber (ds ++ g) = .int (digitsVal ds) := by
  have hh : ∀ c ∈ ds.head?, isDigit c = true := by
    cases ds with
    | nil => simp
    | cons d r => simp only [List.all_cons, Bool.and_eq_true] at hds; simpa using hds.1
  have hs : strip (ds ++ g) = ds := strip_of ds g hne (fun c hc => digit_not_space (hh c hc))
    (fun c hc => digit_not_space (all_getLast _ _ hds c hc)) hg
  have hi : pyInt (ds ++ g) = some (digitsVal ds : Int) := by
    rw [pyInt, hs, signOf_of ds (fun c hc => digit_not_sign (hh c hc))]
    simp [hne, hds]
  rw [tryNumber, hi]

theorem tryNumber_dec (a b g : List Char) (ha : a.all isDigit = true) (hb : b.all isDigit = true) (hne : b ≠ [])
    (hg : g.all isSpace = true) :
    tryNumber ((a ++ '.' :: b) ++ g) = .float (digitsVal a + digitsVal b / 10 ^ b.length) := by
  have hh : ∀ c ∈ (a ++ '.' :: b).head?, isSpace c = false ∧ isSign c = false := by
    cases a with
    | nil => simp; decide
    | cons d r =>
      simp only [List.all_cons, Bool.and_eq_true] at ha
      simpa using ⟨digit_not_space ha.1, digit_not_sign ha.1⟩
  have hl : ∀ c ∈ (a ++ '.' :: b).getLast?, isSpace c = false := by
    intro c hc
    have : (a ++ '.' :: b).getLast? = b.getLast? := by
      rw [List.getLast?_append, List.getLast?_cons]
      cases b with
      | nil => exact absurd rfl hne
      | cons x y => simp [List.getLast?_cons]
    rw [this] at hc
    exact digit_not_space (all_getLast _ _ hb c hc)
  have hs : strip ((a ++ '.' :: b) ++ g) = a ++ '.' :: b := strip_of _ g (by simp) (fun c hc => (hh c hc).1) hl hg
  have hsg : signOf (a ++ '.' :: b) = (1, a ++ '.' :: b) := signOf_of _ (fun c hc => (hh c hc).2)
  have hi : pyInt ((a ++ '.' :: b) ++ g) = none := by
    rw [pyInt, hs, hsg]
    have : isDigit '.' = false := by decide
    simp [this]
  have hdot : isDigit '.' = false := by decide
  have ht : (a ++ '.' :: b).takeWhile isDigit = a := by
    rw [List.takeWhile_append_of_pos (by simpa using ha)]
    simp [hdot]
  have hd : (a ++ '.' :: b).dropWhile isDigit = '.' :: b := by
    rw [dropWhile_append_all _ _ _ ha, List.dropWhile_cons_of_neg (by simp [hdot])]
  have hf : pyFloat ((a ++ '.' :: b) ++ g) = some ((digitsVal a : Rat) + (digitsVal b : Rat) / 10 ^ b.length) := by
    rw [pyFloat, hs, hsg]
    simp only [ht, hd]
    simp [hb, hne]
  rw [tryNumber, hi, hf]

theorem tryNumber_letter (c : Char) (hc : isLower c = true) : tryNumber [c] = .text [c] := by
  have hs : strip [c] = [c] := by simp [strip, lower_not_space hc]
  have hsign : isSign c = false := by
    cases h : isSign c with
    | false => rfl
    | true =>
      simp only [isSign, Bool.or_eq_true, beq_iff_eq] at h
      rcases h with rfl | rfl <;> exact absurd hc (by decide)
  have hsg : signOf [c] = (1, [c]) := signOf_of _ (by simpa using hsign)
  have hi : pyInt [c] = none := by rw [pyInt, hs, hsg]; simp [lower_not_digit hc]
  have hf : pyFloat [c] = none := by
    rw [pyFloat, hs, hsg]
    have : c ≠ '.' := by have := lower_not_dot hc; simpa [isDot] using this
    simp [lower_not_digit hc, this]
  rw [tryNumber, hi, hf]

/-- A word followed by white space has the value of the word. -/
theorem tryNumber_word (w : Word) (hw : w.Ok) (g : List Char) (hg : g.all isSpace = true) (hl : w.IsNumber ∨ g = []) :
    tryNumber (w.text ++ g) = w.val := by
  cases w with
  | letter c =>
    rcases hl with h | rfl
    · exact absurd h (by simp [Word.IsNumber])
    · exact tryNumber_letter c hw
  | int ds => exact tryNumber_int ds g hw.1 hw.2 hg
  | dec a b => exact tryNumber_dec a b g hw.1 hw.2.1 hw.2.2 hg

/-! ## Lists of arguments -/

theorem text_ne (a : Written) (ha : a.Ok) : 0 < a.text.length := by
  obtain ⟨c, r, h, -⟩ := word_head a.word ha.1 a.after
  rw [Written.text, h]; simp

/-- The text behind an argument starts with something that ends it. -/
theorem args_start (l : List Written) (hl : ∀ a ∈ l, a.Ok) (tail : List Char)
    (ht : ∀ c ∈ tail.head?, isUpper c = true) :
    ∀ c ∈ (l.flatMap Written.text ++ tail).head?, isSpace c = false ∧ isSep c = false := by
  cases l with
  | nil => intro c hc; exact ⟨upper_not_space (ht c (by simpa using hc)), upper_not_sep (ht c (by simpa using hc))⟩
  | cons a r =>
    obtain ⟨c, q, h, h1, h2, -⟩ := word_head a.word (hl a (by simp)).1 (a.after ++ (r.flatMap Written.text ++ tail))
    intro x hx
    rw [List.flatMap_cons, Written.text, List.append_assoc, List.append_assoc, h] at hx
    simp only [List.head?_cons, Option.mem_def, Option.some.injEq] at hx
    subst hx; exact ⟨h1, h2⟩

theorem args_start_number (a : Written) (l : List Written) (hl : ∀ b ∈ l, b.Ok) (hap : Apart (a :: l))
    (hn : a.word.IsNumber) (ha : a.after = []) (tail : List Char) (ht : ∀ c ∈ tail.head?, isUpper c = true) :
    ∀ c ∈ (l.flatMap Written.text ++ tail).head?, isDigit c = false ∧ isDot c = false := by
  cases l with
  | nil => intro c hc; exact ⟨upper_not_digit (ht c (by simpa using hc)), upper_not_dot (ht c (by simpa using hc))⟩
  | cons b r =>
    have hb : ¬b.word.IsNumber := fun h => hap.1 hn h ha
    have hok := (hl b (by simp)).1
    cases hw : b.word with
    | letter c =>
      rw [hw] at hok
      intro x hx
      rw [List.flatMap_cons, Written.text, hw, Word.text, List.singleton_append, List.cons_append, List.cons_append] at hx
      simp only [List.head?_cons, Option.mem_def, Option.some.injEq] at hx
      subst hx
      exact ⟨lower_not_digit hok, lower_not_dot hok⟩
    | int ds => rw [hw] at hb; exact absurd trivial hb
    | dec a b => rw [hw] at hb; exact absurd trivial hb

theorem apart_tail (a : Written) (l : List Written) (h : Apart (a :: l)) : Apart l := by
  cases l with
  | nil => trivial
  | cons b r => exact h.2

theorem args_run (l : List Written) (hl : ∀ a ∈ l, a.Ok) (hap : Apart l) (tail : List Char)
    (ht : ∀ c ∈ tail.head?, isUpper c = true) (n : Nat) (hn : (l.flatMap Written.text).length ≤ n) (caps) :
    ∃ cs : List (Nat × List Char), (∀ e ∈ cs, e.1 = 2) ∧
      (runStar reArg.run n ⟨l.flatMap Written.text ++ tail, caps⟩).head? = some ⟨tail, cs ++ caps⟩ := by
  induction l generalizing n caps with
  | nil =>
    refine ⟨[], by simp, ?_⟩
    rw [runStar_none _ _ _ (arg_none _ (by simpa using ht))]
    rfl
  | cons a r ih =>
    have ha := hl a (by simp)
    have hr : ∀ b ∈ r, b.Ok := fun b hb => hl b (by simp [hb])
    obtain ⟨g, -, -, hone⟩ := arg_written a ha (r.flatMap Written.text ++ tail) caps (args_start r hr tail ht)
      (fun h1 h2 => args_start_number a r hr hap h1 h2 tail ht)
    have hpos := text_ne a ha
    rw [List.flatMap_cons, List.length_append] at hn
    cases n with
    | zero => omega
    | succ n =>
      obtain ⟨cs, hcs, hrun⟩ := ih hr (apart_tail a r hap) n (by omega) ((2, a.word.text ++ g) :: caps)
      refine ⟨cs ++ [(2, a.word.text ++ g)], ?_, ?_⟩
      · intro e he
        rw [List.mem_append] at he
        rcases he with he | he
        · exact hcs e he
        · simp only [List.mem_singleton] at he; rw [he]
      · rw [List.flatMap_cons, List.append_assoc, runStar_some _ n _ _ hone (by simp only [List.length_append]; omega), hrun]
        simp

theorem args_find (l : List Written) (hl : ∀ a ∈ l, a.Ok) (hap : Apart l) (n : Nat)
    (hn : (l.flatMap Written.text).length ≤ n) :
    (((findAllFuel reArg n (l.flatMap Written.text)).map (fun m => (m.group 2).getD [])).filter (· ≠ [])).map tryNumber =
      l.map (fun a => a.word.val) := by
  induction l generalizing n with
  | nil => cases n <;> rfl
  | cons a r ih =>
    have ha := hl a (by simp)
    have hr : ∀ b ∈ r, b.Ok := fun b hb => hl b (by simp [hb])
    obtain ⟨g, hg, hgl, hone⟩ := arg_written a ha (r.flatMap Written.text ++ []) [] (args_start r hr [] (by simp))
      (fun h1 h2 => args_start_number a r hr hap h1 h2 [] (by simp))
    simp only [List.append_nil] at hone
    have hpos := text_ne a ha
    rw [List.flatMap_cons, List.length_append] at hn
    cases n with
    | zero => omega
    | succ n =>
      have hval := tryNumber_word a.word ha.1 g hg hgl
      obtain ⟨c, q, hcq, -⟩ := word_head a.word ha.1 g
      obtain ⟨c', q', hcq', -⟩ := word_head a.word ha.1 (a.after ++ r.flatMap Written.text)
      have htext : a.text ++ r.flatMap Written.text = c' :: q' := by rw [Written.text, List.append_assoc, hcq']
      have hstep : findAllFuel reArg (n + 1) (a.text ++ r.flatMap Written.text) =
          ⟨r.flatMap Written.text, [(2, a.word.text ++ g)]⟩ :: findAllFuel reArg n (r.flatMap Written.text) := by
        have hf : reArg.first (c' :: q') = some ⟨r.flatMap Written.text, [(2, a.word.text ++ g)]⟩ := by
          rw [← htext]; exact hone
        rw [htext, findAllFuel]
        simp only [hf]
      rw [List.flatMap_cons, hstep, List.map_cons]
      have hgr : (Pos.group ⟨r.flatMap Written.text, [(2, a.word.text ++ g)]⟩ 2).getD [] = a.word.text ++ g := by
        simp [Pos.group]
      rw [hgr, List.filter_cons_of_pos (by rw [hcq]; simp), List.map_cons, hval, ih hr (apart_tail a r hap) n (by omega)]
      rfl

theorem readArgs_written (l : List Written) (hl : ∀ a ∈ l, a.Ok) (hap : Apart l) :
    readArgs (l.flatMap Written.text) = l.map (fun a => a.word.val) := args_find l hl hap _ (Nat.le_refl _)

/-! ## Layers -/

theorem one_seq_first (a b : Re) (s t u : Pos) (ha : a.one s = some t) (hb : b.one t = some u) :
    (Re.seq a b).one s = some u := by
  rw [Re.one] at ha hb ⊢
  show ((a.run s).flatMap b.run).head? = _
  cases h : a.run s with
  | nil => rw [h] at ha; simp at ha
  | cons x r =>
    rw [h] at ha
    simp only [List.head?_cons, Option.some.injEq] at ha
    subst ha
    rw [List.flatMap_cons, List.head?_append, hb]
    rfl

theorem type_written (lead gap rest : List Char) (T : Char) (caps) (hT : isUpper T = true) (hlead : lead.all isSpace = true)
    (hgap : gap.all isSpace = true) (hr : ∀ c ∈ rest.head?, isSpace c = false)
    (hu : gap = [] → ∀ c ∈ rest.head?, isUpper c = false) :
    reType.one ⟨lead ++ T :: (gap ++ rest), caps⟩ = some ⟨rest, (1, [T]) :: caps⟩ := by
  have h1 : reSpaces.one ⟨lead ++ T :: (gap ++ rest), caps⟩ = some ⟨T :: (gap ++ rest), caps⟩ := by
    rw [reSpaces, one_star_chr]
    simp only
    rw [dropWhile_append_all _ _ _ hlead, dropWhile_none _ _ (by simpa using upper_not_space hT)]
  have hnu : ∀ c ∈ (gap ++ rest).head?, isUpper c = false := by
    cases gap with
    | nil => simpa using hu rfl
    | cons c r =>
      simp only [List.all_cons, Bool.and_eq_true] at hgap
      simpa using (space_cases hgap.1).1
  have h2 : (Re.plus (.chr isUpper)).one ⟨T :: (gap ++ rest), caps⟩ = some ⟨gap ++ rest, caps⟩ := by
    rw [Re.plus, one_seq_single _ _ _ ⟨gap ++ rest, caps⟩ (run_chr_some _ _ _ _ hT), one_star_chr]
    simp only
    rw [dropWhile_none _ _ hnu]
  have h3 := one_cap 1 _ _ _ h2
  simp only [List.length_cons, Nat.add_sub_cancel_left, List.take_succ_cons, List.take_zero] at h3
  refine one_seq_first _ _ _ _ _ h1 (one_seq_first _ _ _ _ _ h3 ?_)
  rw [reSpaces, one_star_chr]
  simp only
  rw [dropWhile_append_all _ _ _ hgap, dropWhile_none _ _ hr]

theorem item_written (lead : List Char) (i : Item) (tail : List Char) (hlead : lead.all isSpace = true)
    (hT : isUpper i.letter = true) (hgap : i.gap.all isSpace = true) (hl : ∀ a ∈ i.args, a.Ok) (hap : Apart i.args)
    (ht : ∀ c ∈ tail.head?, isUpper c = true) (hta : i.args = [] → i.gap = [] → tail = []) :
    ∃ m : Pos, reSpec.first (lead ++ (i.text ++ tail)) = some m ∧ m.rest = tail ∧ m.group 1 = some [i.letter] ∧
      m.group 3 = some (i.args.flatMap Written.text) := by
  have h1 := type_written lead i.gap (i.args.flatMap Written.text ++ tail) i.letter [] hT hlead hgap
    (fun c hc => (args_start i.args hl tail ht c hc).1)
    (by
      intro hg c hc
      cases ha : i.args with
      | nil => rw [ha, hta ha hg] at hc; simp at hc
      | cons a r =>
        rw [ha] at hc hl
        obtain ⟨x, q, h, -, -, h3, -⟩ := word_head a.word (hl a (by simp)).1 (a.after ++ (r.flatMap Written.text ++ tail))
        rw [List.flatMap_cons, Written.text, List.append_assoc, List.append_assoc, h] at hc
        simp only [List.head?_cons, Option.mem_def, Option.some.injEq] at hc
        subst hc; exact h3)
  obtain ⟨cs, hcs, h2⟩ := args_run i.args hl hap tail ht (i.args.flatMap Written.text ++ tail).length
    (by rw [List.length_append]; omega) [(1, [i.letter])]
  have h3 : (Re.star reArg).one ⟨i.args.flatMap Written.text ++ tail, [(1, [i.letter])]⟩ = some ⟨tail, cs ++ [(1, [i.letter])]⟩ := h2
  have h4 := one_cap 3 _ _ _ h3
  simp only [List.length_append, Nat.add_sub_cancel_right, List.take_left] at h4
  refine ⟨⟨tail, (3, i.args.flatMap Written.text) :: (cs ++ [(1, [i.letter])])⟩, ?_, rfl, ?_, ?_⟩
  rotate_left
  · have hf : cs.find? (fun e => decide (e.1 = 1)) = none := by
      rw [List.find?_eq_none]
      intro e he
      simp [hcs e he]
    show ((((3, i.args.flatMap Written.text) :: (cs ++ [(1, [i.letter])])).find? (fun e => decide (e.1 = 1))).map Prod.snd) = _
    rw [List.find?_cons_of_neg (by simp), List.find?_append, hf]
    simp
  · show ((((3, i.args.flatMap Written.text) :: (cs ++ [(1, [i.letter])])).find? (fun e => decide (e.1 = 3))).map Prod.snd) = _
    rw [List.find?_cons_of_pos (by simp)]
    rfl
  · have : lead ++ (i.text ++ tail) = lead ++ i.letter :: (i.gap ++ (i.args.flatMap Written.text ++ tail)) := by
      simp [Item.text]
    rw [Re.first, this]
    exact one_seq_first _ _ _ _ _ h1 h4

/-- What is read from an item. -/
def Item.read (i : Item) : List Char × List Val := ([i.letter], i.args.map (fun a => a.word.val))

/-- An item that can be read. -/
def Item.Ok (i : Item) : Prop :=
  isUpper i.letter = true ∧ i.gap.all isSpace = true ∧ (∀ a ∈ i.args, a.Ok) ∧ Apart i.args

theorem mem_runStar_chr (p : Char → Bool) (n : Nat) (s t : Pos) (h : t ∈ runStar (Re.chr p).run n s) :
    t.rest <:+ s.rest := by
  induction n generalizing s with
  | zero => simp only [runStar, List.mem_singleton] at h; rw [h]; exact List.suffix_refl _
  | succ n ih =>
    obtain ⟨rest, caps⟩ := s
    rw [runStar, List.mem_append] at h
    rcases h with h | h
    · rw [List.mem_flatMap] at h
      obtain ⟨u, hu, hm⟩ := h
      have hu' := (List.mem_filter.1 hu).1
      have hs := ih u hm
      cases rest with
      | nil => simp [Re.run] at hu'
      | cons c r =>
        by_cases hc : p c = true
        · simp only [Re.run, hc, if_true, List.mem_singleton] at hu'
          subst hu'
          exact hs.trans (List.suffix_cons c r)
        · simp [Re.run, hc] at hu'
    · simp only [List.mem_singleton] at h; rw [h]; exact List.suffix_refl _

theorem spec_spaces (text : List Char) (h : text.all isSpace = true) : reSpec.first text = none := by
  have : reType.run ⟨text, []⟩ = [] := by
    refine run_seq_nil _ _ _ ?_
    intro t ht
    have hs := mem_runStar_chr isSpace _ _ _ ht
    refine run_seq_nil _ _ _ ?_
    intro u hu
    have hn : (Re.plus (.chr isUpper)).run t = [] := by
      refine run_seq_nil _ _ _ ?_
      intro v hv
      rw [run_chr_none isUpper t] at hv
      · simp at hv
      · intro c hc
        have hm : c ∈ text := hs.subset (List.mem_of_head? hc)
        exact (space_cases (List.all_eq_true.1 h c hm)).1
    simp only [Re.run, hn, List.map_nil, List.not_mem_nil] at hu
  show (reSpec.run ⟨text, []⟩).head? = none
  rw [reSpec, run_seq_nil _ _ _ (by intro t ht; rw [this] at ht; simp at ht)]
  rfl

theorem find_spaces (n : Nat) (text : List Char) (h : text.all isSpace = true) : findAllFuel reSpec n text = [] := by
  induction n generalizing text with
  | zero => rfl
  | succ n ih =>
    cases text with
    | nil => rfl
    | cons c r =>
      rw [findAllFuel]
      simp only [spec_spaces _ h]
      simp only [List.all_cons, Bool.and_eq_true] at h
      exact ih r h.2

theorem items_start (l : List Item) (hl : ∀ i ∈ l, i.Ok) : ∀ c ∈ (l.flatMap Item.text).head?, isUpper c = true := by
  cases l with
  | nil => simp
  | cons i r =>
    rw [List.flatMap_cons, Item.text]
    simpa using (hl i (by simp)).1

theorem items_find (l : List Item) (hl : ∀ i ∈ l, i.Ok) (hap : LettersApart l) (lead : List Char)
    (hlead : lead.all isSpace = true) (n : Nat) (hn : (lead ++ l.flatMap Item.text).length ≤ n) :
    (findAllFuel reSpec n (lead ++ l.flatMap Item.text)).map
      (fun m => ((m.group 1).getD [], readArgs ((m.group 3).getD []))) = l.map Item.read := by
  induction l generalizing lead n with
  | nil =>
    simp only [List.flatMap_nil, List.append_nil, List.map_nil]
    rw [find_spaces _ _ hlead]; rfl
  | cons i r ih =>
    have hi := hl i (by simp)
    have hr : ∀ j ∈ r, j.Ok := fun j hj => hl j (by simp [hj])
    have hta : i.args = [] → i.gap = [] → r.flatMap Item.text = [] := by
      intro h1 h2
      cases r with
      | nil => rfl
      | cons j q => exact absurd h2 (hap.1 h1)
    obtain ⟨m, hm, hrest, hg1, hg3⟩ := item_written lead i (r.flatMap Item.text) hlead hi.1 hi.2.1 hi.2.2.1 hi.2.2.2
      (items_start r hr) hta
    rw [List.flatMap_cons] at hn ⊢
    obtain ⟨c, q, hcq⟩ : ∃ c q, lead ++ (i.text ++ r.flatMap Item.text) = c :: q := by
      cases lead with
      | nil => exact ⟨_, _, rfl⟩
      | cons c q => exact ⟨_, _, rfl⟩
    cases n with
    | zero => simp [Item.text] at hn
    | succ n =>
      have hap' : LettersApart r := by
        cases r with
        | nil => trivial
        | cons j q => exact hap.2
      have hstep : findAllFuel reSpec (n + 1) (lead ++ (i.text ++ r.flatMap Item.text)) =
          m :: findAllFuel reSpec n (r.flatMap Item.text) := by
        rw [hcq] at hm ⊢
        rw [findAllFuel]
        simp only [hm, hrest]
      rw [hstep, List.map_cons, hg1, hg3]
      have := ih hr hap' [] rfl n (by
        simp only [List.length_append, Item.text, List.length_cons, List.nil_append] at hn ⊢; omega)
      rw [List.nil_append] at this
      rw [this]
      simp only [Option.getD_some, readArgs_written _ hi.2.2.1 hi.2.2.2]
      rfl

theorem readSpec_written (l : List Item) (hl : ∀ i ∈ l, i.Ok) (hap : LettersApart l) (lead : List Char)
    (hlead : lead.all isSpace = true) : readSpec (lead ++ l.flatMap Item.text) = l.map Item.read :=
  items_find l hl hap lead hlead _ (Nat.le_refl _)

/-! ## Creating the layers -/

theorem actFuncs_letter (a : Act) : actFuncs (.text [a.letter]) = some a.name := by cases a <;> rfl

theorem takeAct_doc (dflt : Act) (a : Option Act) (z : Int) (rest : List Val) :
    takeAct dflt.name ((a.toList.map (fun a => Val.text [a.letter])) ++ (.int z :: rest)) =
      ((a.getD dflt).name, .int z :: rest) := by
  cases a with
  | none => rfl
  | some a => simp [takeAct, actFuncs_letter]

theorem padStride_extra (l : List Extra) (r : Nat × Nat) :
    padStride (l.flatMap Extra.args) ((r.1 : Int), (r.2 : Int)) =
      some (((((l.filterMap Extra.padding?).getLast?).getD r.1 : Nat) : Int), ((((l.filterMap Extra.stride?).getLast?).getD r.2 : Nat) : Int)) := by
  induction l generalizing r with
  | nil => rfl
  | cons e q ih =>
    cases e with
    | padding n =>
      have := ih (n, r.2)
      simp only [List.flatMap_cons, Extra.args, List.cons_append, List.nil_append, padStride, List.filterMap_cons,
        Extra.padding?, Extra.stride?]
      rw [this, List.getLast?_cons]
      rfl
    | stride n =>
      have := ih (r.1, n)
      simp only [List.flatMap_cons, Extra.args, List.cons_append, List.nil_append, padStride, List.filterMap_cons,
        Extra.padding?, Extra.stride?]
      rw [this, List.getLast?_cons]
      rfl

theorem createLayer_doc (d : Doc) : createLayer [d.letter] d.args = some d.made := by
  cases d with
  | fullyConnected a n =>
    show layerF _ = _
    rw [layerF, Doc.args, show str "rel" = Act.relu.name from rfl, takeAct_doc]
    rfl
  | recurrent a n =>
    show layerR _ = _
    rw [layerR, Doc.args, show str "tanh" = Act.tanh.name from rfl, takeAct_doc]
    rfl
  | lstm a n =>
    show layerL _ = _
    rw [layerL, Doc.args, show str "tanh" = Act.tanh.name from rfl, takeAct_doc]
    rfl
  | batchNorm => rfl
  | dropout p => cases p <;> rfl
  | convolution a f k l =>
    show layerC _ = _
    rw [layerC, Doc.args, show str "rel" = Act.relu.name from rfl, List.append_assoc, List.cons_append, takeAct_doc]
    have : padStride (l.flatMap Extra.args) (0, 1) = some ((paddingOf l : Int), (strideOf l : Int)) := padStride_extra l (0, 1)
    simp only [List.cons_append, List.nil_append, this]
    rfl
  | pooling t k l =>
    show layerP _ = _
    have : padStride (l.flatMap Extra.args) (0, 1) = some ((paddingOf l : Int), (strideOf l : Int)) := padStride_extra l (0, 1)
    cases t with
    | none =>
      simp only [layerP, Doc.args, Option.toList_none, List.map_nil, List.nil_append, List.cons_append, takePool, this]
      rfl
    | some t =>
      cases t <;>
      · simp only [layerP, Doc.args, Option.toList_some, List.map_cons, List.map_nil, List.nil_append, List.cons_append,
          takePool, PoolKind.letter, this]
        rfl

end Verif.NetSpec
