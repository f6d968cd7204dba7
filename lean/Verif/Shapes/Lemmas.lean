import Verif.Shapes.Model
import Verif.Setup.Lemmas

/-! # Lemmas: evaluating the passes on the declared shapes -/

namespace Verif.Shapes

open Verif.Structure Verif.Instantiate
open Verif.Setup (Kwargs KVal inp intSize pairArg intArg poolIsMax mk? tb? mk?_some inp_some declare Decl)

/-- Only the first part of a sequence is simplified; the rest follows when its value is known. -/
theorem bind_congr_left {α β : Type} {a a' : Option α} {f : α → Option β} (h : a = a') : a.bind f = a'.bind f := by rw [h]

theorem do_congr_left {α β : Type} {a a' : Option α} {f : α → Option β} (h : a = a') : (a >>= f) = (a' >>= f) := by rw [h]

/-! ### Structures -/

/-- The structure `('T', 'B', f, fs...)`. -/
abbrev tbS (fs : List Nat) (c : Nat := 0) (b : Bool := false) : Struct := ⟨.T :: .B :: fs.map .n, c, b⟩

theorem typeOf_tb (l : List Tok) : typeOf (.T :: .B :: l) = 2 := by simp [typeOf]

theorem featureShape_tb (fs : List Nat) (c : Nat) (b : Bool) : (tbS fs c b).featureShape = fs.map .n := by
  simp [Struct.featureShape, Struct.bufferType, typeOf_tb]

theorem foldl_mul (l : List Nat) (a : Nat) : l.foldl (· * ·) a = a * l.prod := by
  induction l generalizing a with
  | nil => simp
  | cons x l ih => simp [ih, Nat.mul_assoc]

theorem map_size (fs : List Nat) : (fs.map Tok.n).map Tok.size = fs := by
  rw [List.map_map]; exact List.map_id fs

theorem featureSize_tb (fs : List Nat) (c : Nat) (b : Bool) : (tbS fs c b).featureSize = fs.prod := by
  rw [Struct.featureSize, featureShape_tb, map_size, foldl_mul, Nat.one_mul]

theorem featureSize_cons (f : Nat) (fs : List Nat) (c : Nat) (b : Bool) :
    (tbS (f :: fs) c b).featureSize = f * fs.prod := by rw [featureSize_tb, List.prod_cons]

theorem structShape_tb (fs : List Nat) (c : Nat) (b : Bool) (T B : Nat) :
    Buffers.structShape (tbS fs c b) T B = (T + c) :: B :: fs := by
  rw [Buffers.structShape, featureShape_tb, map_size]
  simp [Struct.bufferType, typeOf_tb]

theorem structShape_nums (fs : List Nat) (b : Bool) (T B : Nat) : Buffers.structShape ⟨fs.map .n, 0, b⟩ T B = fs := by
  rw [Buffers.structShape, Struct.featureShape]
  simp only [Struct.bufferType, Setup.typeOf_nums, List.drop_zero, map_size]
  rfl

theorem tb?_nums {fs : List Nat} (h : fs ≠ []) (c : Nat) (b : Bool) : tb? (fs.map .n) c b = some (tbS fs c b) := by
  unfold tb? mk?
  rw [(C13_structures _).2 ⟨.time, fs, h, rfl, fun _ => rfl⟩]

theorem tb?_one (n c : Nat) (b : Bool) : tb? [.n n] c b = some (tbS [n] c b) := tb?_nums (fs := [n]) (by simp) c b

theorem tb?_three (a b d c : Nat) (k : Bool) : tb? [.n a, .n b, .n d] c k = some (tbS [a, b, d] c k) :=
  tb?_nums (fs := [a, b, d]) (by simp) c k

theorem mk?_nums {fs : List Nat} (h : fs ≠ []) (b : Bool) : mk? (fs.map .n) 0 b = some ⟨fs.map .n, 0, b⟩ := by
  unfold mk?
  rw [(C13_structures _).2 ⟨.none, fs, h, rfl, fun h => absurd rfl h⟩]

theorem mk?_one (a : Nat) : mk? [.n a] = some ⟨[.n a], 0, false⟩ := mk?_nums (fs := [a]) (by simp) false

theorem mk?_two (a b : Nat) : mk? [.n a, .n b] = some ⟨[.n a, .n b], 0, false⟩ := mk?_nums (fs := [a, b]) (by simp) false

theorem mk?_four (a b c d : Nat) : mk? [.n a, .n b, .n c, .n d] = some ⟨[.n a, .n b, .n c, .n d], 0, false⟩ :=
  mk?_nums (fs := [a, b, c, d]) (by simp) false

/-- What is known about an input that matches `('T', 'B', '...')`. -/
theorem tb_of {s : Struct} (hv : s.validate = .ok ()) (hm : Setup.anyTB.matches s = true) (hc : s.contextSize = 0) :
    ∃ f fs b, s = tbS (f :: fs) 0 b := by
  obtain ⟨p, fs, hne, hs, -⟩ := (C13_structures s).1 hv
  obtain ⟨sh, c, b⟩ := s
  simp only at hs hc
  subst hs hc
  obtain ⟨f, fs, rfl⟩ := List.exists_cons_of_ne_nil hne
  cases p with
  | time => exact ⟨f, fs, b, rfl⟩
  | none => simp [Template.matches, Setup.anyTB, shapeOf, Scaling.marks] at hm
  | batch => simp [Template.matches, Setup.anyTB, shapeOf, Scaling.marks] at hm

/-! ### Dictionaries -/

theorem get?_shapesOf (d : Dict Name Struct) (T B : Nat) (k : Name) :
    Dict.get? (shapesOf d T B) k = (Dict.get? d k).map (Buffers.structShape · T B) := by
  induction d with
  | nil => rfl
  | cons e d ih =>
    obtain ⟨k', s⟩ := e
    simp only [shapesOf, List.map_cons, Dict.get?] at ih ⊢
    split
    · rfl
    · exact ih

theorem build_some {d : Decl} {sh : Instantiate.Shapes} (h : d.build = some sh) :
    declare d.outs = some sh.outs ∧ declare d.params = some sh.params ∧ declare d.internals = some sh.internals := by
  unfold Setup.Decl.build at h
  split at h
  · rename_i h1 h2 h3
    cases h
    exact ⟨h1, h2, h3⟩
  · cases h

theorem at_in {ins : Dict Name Struct} {k : String} {fs : List Nat} {c : Nat} {b : Bool} (T B : Nat)
    (h : Dict.get? ins (str k) = some (tbS fs c b)) : at? (shapesOf ins T B) k = some ((T + c) :: B :: fs) := by
  rw [at?, get?_shapesOf, h, Option.map_some, structShape_tb]

theorem at_in0 {ins : Dict Name Struct} {k : String} {fs : List Nat} {b : Bool} (T B : Nat)
    (h : Dict.get? ins (str k) = some (tbS fs 0 b)) : at? (shapesOf ins T B) k = some (T :: B :: fs) := at_in T B h

theorem inp_of {ins : Dict Name Struct} {k : Name} {s : Struct} (h : inp ins k = some s) :
    Dict.get? ins k = some s := (inp_some h).1

/-! ### Loops and indices -/

theorem loop_ok {n : Nat} {body : Nat → Option Unit} (h : ∀ t, t < n → body t = some ()) : loop n body = some () := by
  unfold loop
  have key : ∀ l : List Nat, (∀ t ∈ l, t < n) → l.forM body = some () := by
    intro l
    induction l with
    | nil => intro _; rfl
    | cons a l ih =>
      intro hl
      simp only [List.forM_eq_forM, List.forM_cons] at ih ⊢
      rw [h a (hl a (by simp))]
      exact ih (fun t ht => hl t (List.mem_cons_of_mem _ ht))
  exact key _ (fun t ht => List.mem_range.1 ht)

theorem idx_ok {n : Nat} {rest : Sh} {i : Int} (h1 : -(n : Int) ≤ i) (h2 : i < n) : idx (n :: rest) i = some rest := by
  simp [idx, h1, h2]

theorem flattenTime_ok (t b f : Nat) (fs : List Nat) :
    flattenTime (t :: b :: f :: fs) = some ((t * b) :: f :: fs) := by
  simp [flattenTime, reshape, Nat.mul_assoc]

theorem flattenTF_ok (t b f : Nat) (fs : List Nat) :
    flattenTF (t :: b :: f :: fs) = some [t * b, f * fs.prod] := by
  simp [flattenTF, reshape, Nat.mul_assoc]

theorem flattenLast_ok (t b : Nat) (fs : List Nat) (k : Nat) :
    flattenAllButLast (t :: b :: (fs ++ [k])) = some [t * b * fs.prod, k] := by
  have e : t :: b :: (fs ++ [k]) = (t :: b :: fs) ++ [k] := rfl
  rw [e, flattenAllButLast, List.getLast?_concat, List.dropLast_concat]
  simp [reshape, Nat.mul_assoc]

theorem check_ok {p : Prop} [Decidable p] (h : p) : check p = some () := if_pos h

theorem row_ok (n : Nat) : row [n] n = some [1, n] := by simp [row, reshape]

theorem slice_ok (n a b : Nat) (rest : Sh) : slice (n :: rest) a b = some ((n - b - a) :: rest) := rfl

/-! ### Activation functions -/

/-- The activation function, if one is given, is one of the five names. -/
def Known (kw : Kwargs) : Prop := ∀ v, Dict.get? kw (str "activation") = some v → ∃ a ∈ activations, v = .string a

theorem known_ok {kw : Kwargs} (h : Known kw) {dflt : Name} (hd : dflt ∈ activations) :
    known (activation kw dflt) = some () := by
  apply check_ok
  unfold activation
  split
  · exact ⟨dflt, hd, rfl⟩
  · rename_i s hs
    obtain ⟨a, ha, e⟩ := h _ hs
    cases e
    exact ⟨_, ha, rfl⟩
  · rename_i v hv hs
    obtain ⟨a, ha, e⟩ := h _ hs
    exact absurd e (hv a)

theorem act_ok {a : Option Name} (h : known a = some ()) (x : Sh) : act a x x = some () := by
  unfold act
  rw [h]; simp [same2, check]

theorem actDeriv_ok {a : Option Name} (h : known a = some ()) (x : Sh) : actDeriv a x x x x = some () := by
  unfold actDeriv
  rw [h]; simp [same2, check, deriv]

theorem inplaceAct_ok {a : Option Name} (h : known a = some ()) (x : Sh) : inplaceAct a x = some () := by
  unfold inplaceAct
  rw [h]; simp [same2, check]

theorem inplaceActDeriv_ok {a : Option Name} (h : known a = some ()) (x : Sh) : inplaceActDeriv a x x = some () := by
  unfold inplaceActDeriv
  rw [h]; simp [check, deriv]

/-! ### Handler operations on matching shapes -/

theorem same2_ok (a : Sh) : same2 a a = some () := by simp [same2, check]
theorem same3_ok (a : Sh) : same3 a a a = some () := by simp [same3, check]
theorem opMV_row (r c : Nat) : opMV [r, c] [1, c] [r, c] = some () := by simp [opMV, check]
theorem multMV_row (r c : Nat) : multMV [r, c] [1, c] [r, c] = some () := by simp [multMV, check]
theorem multMV_col (r c : Nat) : multMV [r, c] [r, 1] [r, c] = some () := by simp [multMV, check]
theorem multMV_all (r c : Nat) : multMV [r, c] [r, c] [r, c] = some () := by simp [multMV, check]
theorem dot_nn (a b c : Nat) : dotMM [a, b] [b, c] [a, c] = some () := by simp [dotMM, check]
theorem dot_nt (a b c : Nat) : dotMM [a, b] [c, b] [a, c] false true = some () := by simp [dotMM, check]
theorem dot_tn (a b c : Nat) : dotMM [b, a] [b, c] [a, c] true false = some () := by simp [dotMM, check]
theorem sum_rows (r c : Nat) : sumT [r, c] 0 [c] = some () := by simp [sumT, check]
theorem sum_rows_keep (r c : Nat) : sumT [r, c] 0 [1, c] = some () := by simp [sumT, check]
theorem sum_cols_keep (r c : Nat) : sumT [r, c] 1 [r, 1] = some () := by simp [sumT, check]

end Verif.Shapes
