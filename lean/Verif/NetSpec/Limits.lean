import Verif.NetSpec.Props

/-!
# Property C68: where a spec line is not what the documentation says
-/

namespace Verif.NetSpec

open Verif.Construction Verif.Architecture

/-! ## Touching capital letters -/

/-- The groups a pattern captures. -/
def Re.groups : Re → List Nat
  | .chr _ => []
  | .seq a b => a.groups ++ b.groups
  | .alt a b => a.groups ++ b.groups
  | .star a => a.groups
  | .opt a => a.groups
  | .cap n a => n :: a.groups

theorem caps_runStar (f : Pos → List Pos) (g : List Nat)
    (hf : ∀ s t, t ∈ f s → ∃ l, t.caps = l ++ s.caps ∧ ∀ e ∈ l, e.1 ∈ g) (n : Nat) :
    ∀ s t, t ∈ runStar f n s → ∃ l, t.caps = l ++ s.caps ∧ ∀ e ∈ l, e.1 ∈ g := by
  induction n with
  | zero =>
    intro s t ht
    simp only [runStar, List.mem_singleton] at ht
    exact ⟨[], by simp [ht], by simp⟩
  | succ n ih =>
    intro s t ht
    simp only [runStar, List.mem_append, List.mem_flatMap, List.mem_filter, List.mem_singleton] at ht
    rcases ht with ⟨u, ⟨hu, -⟩, ht⟩ | ht
    · obtain ⟨l1, h1, h2⟩ := hf s u hu
      obtain ⟨l2, h3, h4⟩ := ih u t ht
      refine ⟨l2 ++ l1, by rw [h3, h1, List.append_assoc], ?_⟩
      intro e he
      rcases List.mem_append.1 he with he | he
      · exact h4 e he
      · exact h2 e he
    · exact ⟨[], by simp [ht], by simp⟩

theorem caps_run (r : Re) : ∀ s t, t ∈ r.run s → ∃ l, t.caps = l ++ s.caps ∧ ∀ e ∈ l, e.1 ∈ r.groups := by
  induction r with
  | chr p =>
    intro s t ht
    rw [Re.run] at ht
    split at ht
    · simp at ht
    · split at ht
      · simp only [List.mem_singleton] at ht
        exact ⟨[], by simp [ht], by simp⟩
      · simp at ht
  | seq a b iha ihb =>
    intro s t ht
    simp only [Re.run, List.mem_flatMap] at ht
    obtain ⟨u, hu, ht⟩ := ht
    obtain ⟨l1, h1, h2⟩ := iha s u hu
    obtain ⟨l2, h3, h4⟩ := ihb u t ht
    refine ⟨l2 ++ l1, by rw [h3, h1, List.append_assoc], ?_⟩
    intro e he
    simp only [Re.groups, List.mem_append]
    rcases List.mem_append.1 he with he | he
    · exact .inr (h4 e he)
    · exact .inl (h2 e he)
  | alt a b iha ihb =>
    intro s t ht
    simp only [Re.run, List.mem_append] at ht
    rcases ht with ht | ht
    · obtain ⟨l, h1, h2⟩ := iha s t ht
      exact ⟨l, h1, fun e he => by simp only [Re.groups, List.mem_append]; exact .inl (h2 e he)⟩
    · obtain ⟨l, h1, h2⟩ := ihb s t ht
      exact ⟨l, h1, fun e he => by simp only [Re.groups, List.mem_append]; exact .inr (h2 e he)⟩
  | star a ih => exact fun s t ht => caps_runStar a.run a.groups ih _ s t ht
  | opt a ih =>
    intro s t ht
    simp only [Re.run, List.mem_append, List.mem_singleton] at ht
    rcases ht with ht | ht
    · exact ih s t ht
    · exact ⟨[], by simp [ht], by simp⟩
  | cap n a ih =>
    intro s t ht
    simp only [Re.run, List.mem_map] at ht
    obtain ⟨u, hu, rfl⟩ := ht
    obtain ⟨l, h1, h2⟩ := ih s u hu
    refine ⟨(n, List.take (s.rest.length - u.rest.length) s.rest) :: l, by simp [h1], ?_⟩
    intro e he
    rcases List.mem_cons.1 he with rfl | he
    · simp [Re.groups]
    · simp only [Re.groups, List.mem_cons]; exact .inr (h2 e he)

theorem capitals_first (lead : List Char) (hlead : lead.all isSpace = true) (T U : Char) (rest : List Char)
    (hT : isUpper T = true) (hU : isUpper U = true) :
    ∃ m w, reSpec.first (lead ++ T :: U :: rest) = some m ∧ m.group 1 = some (T :: U :: w) := by
  have h1 : reSpaces.one ⟨lead ++ T :: U :: rest, []⟩ = some ⟨T :: U :: rest, []⟩ := by
    rw [reSpaces, one_star_chr]
    simp only
    rw [dropWhile_append_all _ _ _ hlead, dropWhile_none _ _ (by simpa using upper_not_space hT)]
  have h2 : (Re.plus (.chr isUpper)).one ⟨T :: U :: rest, []⟩ = some ⟨rest.dropWhile isUpper, []⟩ := by
    rw [Re.plus, one_seq_single _ _ _ ⟨U :: rest, []⟩ (run_chr_some _ _ _ _ hT), one_star_chr]
    simp only
    rw [List.dropWhile_cons_of_pos hU]
  have h3 := one_cap 1 _ _ _ h2
  have hw : List.take ((T :: U :: rest).length - (rest.dropWhile isUpper).length) (T :: U :: rest) =
      T :: U :: rest.takeWhile isUpper := by
    have hle : (rest.dropWhile isUpper).length ≤ rest.length := (List.dropWhile_suffix _).length_le
    have : (T :: U :: rest).length - (rest.dropWhile isUpper).length =
        (rest.length - (rest.dropWhile isUpper).length) + 1 + 1 := by
      simp only [List.length_cons]; omega
    rw [this, List.take_succ_cons, List.take_succ_cons, take_dropWhile]
  simp only [hw] at h3
  have h4 : ∃ x, (Re.seq (.cap 1 (.plus (.chr isUpper))) reSpaces).one ⟨T :: U :: rest, []⟩ =
      some ⟨x, [(1, T :: U :: rest.takeWhile isUpper)]⟩ := by
    exact ⟨(rest.dropWhile isUpper).dropWhile isSpace, one_seq_first _ _ _ _ _ h3 (by rw [reSpaces, one_star_chr])⟩
  obtain ⟨x, h4⟩ := h4
  have h5 : reType.one ⟨lead ++ T :: U :: rest, []⟩ = some ⟨x, [(1, T :: U :: rest.takeWhile isUpper)]⟩ :=
    one_seq_first _ _ _ _ _ h1 h4
  have h6 : reArgs.run ⟨x, [(1, T :: U :: rest.takeWhile isUpper)]⟩ ≠ [] := cap_ne _ _ (fun s => star_ne _ _) _
  obtain ⟨m, r, hm⟩ := List.exists_cons_of_ne_nil h6
  have h7 : reArgs.one ⟨x, [(1, T :: U :: rest.takeWhile isUpper)]⟩ = some m := by rw [Re.one, hm]; rfl
  obtain ⟨l, h8, h9⟩ := caps_run reArgs _ m (by rw [hm]; exact List.mem_cons_self)
  refine ⟨m, rest.takeWhile isUpper, one_seq_first _ _ _ _ _ h5 h7, ?_⟩
  rw [Pos.group, h8, List.find?_append]
  have hnone : l.find? (fun e => decide (e.1 = 1)) = none := by
    rw [List.find?_eq_none]
    intro e he
    have := h9 e he
    have hg : reArgs.groups = [3, 2] := rfl
    rw [hg] at this
    simp only [List.mem_cons, List.not_mem_nil, or_false] at this
    rcases this with h | h <;> simp [h]
  rw [hnone]
  simp

/-- **C68 (limits: touching letters).** If the first two capital letters of a line touch, as in `BD` or `DF20`, no network is
built, although every one of them may stand for a layer without arguments. -/
theorem C68_letters_touch (lead : List Char) (hlead : lead.all isSpace = true) (T U : Char) (rest : List Char)
    (hT : isUpper T = true) (hU : isUpper U = true) : specLayers (lead ++ T :: U :: rest) = none := by
  obtain ⟨m, w, h1, h2⟩ := capitals_first lead hlead T U rest hT hU
  have hc : ∀ args, createLayer (T :: U :: w) args = none := by
    intro args
    simp [createLayer]
  unfold specLayers readSpec findAll
  generalize hl : lead ++ T :: U :: rest = text at h1 ⊢
  cases text with
  | nil => cases lead <;> simp at hl
  | cons c r =>
    rw [List.length_cons, findAllFuel]
    simp only [h1, List.map_cons, List.mapM_cons, h2, Option.getD_some, hc]
    rfl

/-! ## White space -/

/-- **C68 (limits: white space).** White space is not "completely ignored": taking it out of a line can change the network,
or make it impossible to build one. -/
theorem C68_white_space :
    (∃ spec l l', specLayers spec = some l ∧ specLayers (spec.filter (fun c => !isSpace c)) = some l' ∧ l ≠ l') ∧
    ∃ spec l, specLayers spec = some l ∧ specLayers (spec.filter (fun c => !isSpace c)) = none := by
  exact ⟨⟨str "F5 0", [mkFullyConnected (.int 5) (str "rel")], [mkFullyConnected (.int 50) (str "rel")], by decide +kernel,
    by decide +kernel, by decide +kernel⟩,
    str "B D", [mkBatchNorm, mkDropout], by decide +kernel, by decide +kernel⟩

/-! ## Arguments -/

/-- **C68 (limits: probabilities).** A dropout probability that is written without a decimal point (`D0`, `D1`) is refused. -/
theorem C68_probability_integer (lead : List Char) (hlead : lead.all isSpace = true) (gap ds : List Char)
    (hgap : gap.all isSpace = true) (hds : ds.all isDigit = true) (hne : ds ≠ []) :
    specLayers (lead ++ 'D' :: (gap ++ ds)) = none := by
  have := readSpec_written [⟨'D', gap, [⟨.int ds, [], none, []⟩]⟩] (by
    intro i hi
    simp only [List.mem_singleton] at hi
    subst hi
    refine ⟨rfl, hgap, ?_, trivial⟩
    intro a ha
    simp only [List.mem_singleton] at ha
    subst ha
    exact ⟨⟨hds, hne⟩, rfl, by simp, rfl⟩) trivial lead hlead
  simp only [List.flatMap_cons, List.flatMap_nil, Item.text, Written.text, Written.after, Word.text, List.append_nil,
    Option.toList_none, List.nil_append] at this
  rw [specLayers, this]
  rfl

/-- **C68 (limits: further arguments).** Arguments behind the size of a layer are ignored without a word: `F50:20` gives
one layer of size 50. -/
theorem C68_further_arguments (letter : Char) (hl : letter ∈ ['F', 'R', 'L']) (z : Int) (more : List Val) :
    createLayer [letter] (.int z :: more) = createLayer [letter] [.int z] ∧
      (createLayer [letter] (.int z :: more)).isSome := by
  simp only [List.mem_cons, List.not_mem_nil, or_false] at hl
  rcases hl with rfl | rfl | rfl <;> exact ⟨rfl, rfl⟩

/-! ## Other text -/

theorem mem_runStar_all (p : Char → Bool) (n : Nat) (s t : Pos) (h : t ∈ runStar (Re.chr p).run n s) :
    ∃ w, s.rest = w ++ t.rest ∧ w.all p = true := by
  induction n generalizing s with
  | zero => simp only [runStar, List.mem_singleton] at h; rw [h]; exact ⟨[], rfl, rfl⟩
  | succ n ih =>
    obtain ⟨rest, caps⟩ := s
    rw [runStar, List.mem_append] at h
    rcases h with h | h
    · rw [List.mem_flatMap] at h
      obtain ⟨u, hu, hm⟩ := h
      have hu' := (List.mem_filter.1 hu).1
      obtain ⟨w, hw, hp⟩ := ih u hm
      cases rest with
      | nil => simp [Re.run] at hu'
      | cons c r =>
        by_cases hc : p c = true
        · simp only [Re.run, hc, if_true, List.mem_singleton] at hu'
          subst hu'
          simp only at hw
          exact ⟨c :: w, by simp [hw], by simp [hc, hp]⟩
        · simp [Re.run, hc] at hu'
    · simp only [List.mem_singleton] at h; rw [h]; exact ⟨[], rfl, rfl⟩

theorem spec_none (text : List Char) (h : ∀ c ∈ (text.dropWhile isSpace).head?, isUpper c = false) :
    reSpec.first text = none := by
  have : reType.run ⟨text, []⟩ = [] := by
    refine run_seq_nil _ _ _ ?_
    intro t ht
    obtain ⟨w, hw, hp⟩ := mem_runStar_all isSpace _ _ _ ht
    simp only at hw
    refine run_seq_nil _ _ _ ?_
    intro u hu
    have hn : (Re.plus (.chr isUpper)).run t = [] := by
      refine run_seq_nil _ _ _ ?_
      intro v hv
      rw [run_chr_none isUpper t] at hv
      · simp at hv
      · intro c hc
        cases hu : isUpper c with
        | false => rfl
        | true =>
          rw [hw, dropWhile_append_all _ _ _ hp, dropWhile_none _ _ (by
            intro d hd
            rw [hc] at hd
            cases hd
            exact upper_not_space hu)] at h
          exact absurd hu (by simpa using h c hc)
    simp only [Re.run, hn, List.map_nil, List.not_mem_nil] at hu
  show (reSpec.run ⟨text, []⟩).head? = none
  rw [reSpec, run_seq_nil _ _ _ (by intro t ht; rw [this] at ht; simp at ht)]
  rfl

theorem find_skip (n : Nat) (skip text : List Char) (hs : skip.all (fun c => !isUpper c) = true) :
    ∃ lead, lead.all isSpace = true ∧
      findAllFuel reSpec (n + skip.length) (skip ++ text) = findAllFuel reSpec (n + lead.length) (lead ++ text) := by
  induction skip with
  | nil => exact ⟨[], rfl, rfl⟩
  | cons c r ih =>
    by_cases hsp : (c :: r).all isSpace = true
    · exact ⟨c :: r, hsp, rfl⟩
    · simp only [List.all_cons, Bool.and_eq_true] at hs
      obtain ⟨lead, h2, h4⟩ := ih hs.2
      refine ⟨lead, h2, ?_⟩
      have hnone : reSpec.first (c :: r ++ text) = none := by
        refine spec_none _ ?_
        intro d hd
        have hne : (c :: r).dropWhile isSpace ≠ [] := by
          intro he
          rw [List.dropWhile_eq_nil_iff] at he
          exact hsp (List.all_eq_true.2 (fun x hx => he x hx))
        obtain ⟨x, q, hx⟩ := List.exists_cons_of_ne_nil hne
        have hxm : x ∈ c :: r := (List.dropWhile_suffix isSpace).subset (by rw [hx]; exact List.mem_cons_self)
        have hxs : isSpace x = false := by
          have := dropWhile_head isSpace (c :: r) x (by rw [hx]; rfl)
          exact this
        have hdrop : (c :: r ++ text).dropWhile isSpace = x :: (q ++ text) := by
          rw [List.dropWhile_append, hx]
          simp
        rw [hdrop] at hd
        simp only [List.head?_cons, Option.mem_def, Option.some.injEq] at hd
        subst hd
        have hall : ∀ y ∈ c :: r, isUpper y = false := by
          intro y hy
          rcases List.mem_cons.1 hy with rfl | hy
          · simpa using hs.1
          · simpa using List.all_eq_true.1 hs.2 y hy
        exact hall x hxm
      rw [List.length_cons, ← Nat.add_assoc, List.cons_append, findAllFuel]
      rw [List.cons_append] at hnone
      simp only [hnone]
      exact h4

/-- **C68 (limits: other text).** Text in front of the first capital letter is skipped without a word: whatever it is, the line
gives the same layers as without it. -/
theorem C68_other_text_skipped (skip : List Char) (hs : skip.all (fun c => !isUpper c) = true) (items : List Item)
    (docs : List Doc) (hw : List.Forall₂ Item.Writes items docs) (hap : LettersApart items) :
    specLayers (skip ++ items.flatMap Item.text) = some (docs.map Doc.made) := by
  have hok : ∀ i ∈ items, i.Ok := by
    intro i hi
    obtain ⟨k, hk, rfl⟩ := List.getElem_of_mem hi
    exact ((List.forall₂_iff_get.1 hw).2 k hk ((List.forall₂_iff_get.1 hw).1 ▸ hk)).ok
  obtain ⟨lead, h2, h4⟩ := find_skip (items.flatMap Item.text).length skip (items.flatMap Item.text) hs
  have h5 := items_find items hok hap lead h2 ((items.flatMap Item.text).length + lead.length) (by
    rw [List.length_append]; omega)
  have h6 : readSpec (skip ++ items.flatMap Item.text) = items.map Item.read := by
    rw [readSpec, findAll, List.length_append, Nat.add_comm, h4]
    exact h5
  rw [specLayers, h6]
  exact mapM_items items docs hw

/-! ## Examples -/

/-- The line of the mnist example of the documentation. -/
example : specLayers (str "D.2 F1200 D F1200 D") = some [mkDropout (1 / 5), mkFullyConnected (.int 1200) (str "rel"), mkDropout,
    mkFullyConnected (.int 1200) (str "rel"), mkDropout] := by decide +kernel

/-- Two layers, written with a separator and much white space, meet the conditions of `C68_layers`. -/
example : List.Forall₂ Item.Writes
    [⟨'C', [], [⟨.letter 's', [], none, []⟩, ⟨.int ['3', '2'], [' '], some ':', [' ']⟩, ⟨.int ['5'], [], none, []⟩,
      ⟨.letter 'p', [' '], none, []⟩, ⟨.int ['2'], [], none, [' ']⟩]⟩, ⟨'D', [' '], []⟩]
    [.convolution (some .sigmoid) 32 5 [.padding 2], .dropout none] := by
  refine .cons ⟨rfl, rfl, rfl, ?_, ?_⟩ (.cons ⟨rfl, rfl, rfl, by simp, trivial⟩ .nil)
  · intro a ha
    simp only [List.mem_cons, List.not_mem_nil, or_false] at ha
    rcases ha with rfl | rfl | rfl | rfl | rfl
    · exact ⟨rfl, rfl, by simp, rfl⟩
    · exact ⟨⟨rfl, by simp⟩, rfl, by simp [isSep], rfl⟩
    · exact ⟨⟨rfl, by simp⟩, rfl, by simp, rfl⟩
    · exact ⟨rfl, rfl, by simp, rfl⟩
    · exact ⟨⟨rfl, by simp⟩, rfl, by simp, rfl⟩
  · refine ⟨?_, ?_, ?_, ?_, trivial⟩ <;> simp [Word.IsNumber, Written.after]

/-- The network of the mnist example: five hidden layers between input and projection layer. -/
example : ((netFromSpec 0 ⟨str "classification", [784], [10], str "default", str "targets", none, none, none, none⟩
    (str "D.2 F1200 D F1200 D")).map (fun s => s.made.map Made.baseName)) =
    some [str "Output_projection", str "Output", str "Input", str "Loss", str "Dropout", str "FullyConnected", str "Dropout",
      str "FullyConnected", str "Dropout"] := by decide +kernel

end Verif.NetSpec
