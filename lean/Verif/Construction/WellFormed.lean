import Verif.Construction.GenerateProps

/-!
# Property C03, continued: generated architectures are legal
-/

namespace Verif.Construction

open Verif.Architecture

theorem identifier_of_valid {n : Name} (h : isValidLayerName n = true) (hnl : '\n' ∉ n) : IsIdentifier n := by
  obtain ⟨_, _, (h | ⟨m, _, rfl⟩)⟩ := (isValidLayerName_iff n).1 h
  · exact h
  · exact absurd (by simp) hnl

theorem identifier_indexed {b : Name} (h : IsIdentifier b) (k : Nat) : IsIdentifier (indexed b k) := by
  obtain ⟨c, r, rfl, hc, hr⟩ := h
  refine ⟨c, r ++ '_' :: decimal k, rfl, hc, ?_⟩
  intro d hd
  rcases List.mem_append.1 hd with hd | hd
  · exact hr d hd
  · rcases List.mem_cons.1 hd with rfl | hd
    · decide
    · obtain ⟨e, he, rfl⟩ := mem_decimal k d hd
      have : ∀ e < 10, isIdentChar (digitChar e) = true := by decide
      exact this e he

theorem legal_name (ops : List Op) {k : Nat} (hk : k < (created ops).length) {b n : Name}
    (hb : (created ops)[k]? = some b) (hnl : '\n' ∉ b) (hn : HasName (run ops) k n) :
    n ≠ str "default" ∧ n ≠ str "fallback" ∧ IsIdentifier n := by
  have h := inv_run ops
  have hval : isValidLayerName b = true := created_valid ops b (List.mem_of_getElem? hb)
  have hbase : (run ops).base k = b := by rw [h.base]; simp [List.getD, hb]
  have hid := identifier_of_valid hval hnl
  obtain ⟨v1, v2, -⟩ := (isValidLayerName_iff b).1 hval
  rcases h.hasName (h.count ▸ hk) with ⟨_, h2⟩ | ⟨j, _, _, h2, _⟩
  · rw [hasName_unique hn h2, hbase]; exact ⟨v1, v2, hid⟩
  · rw [hasName_unique hn h2, hbase]
    have : '_' ∈ indexed b j := by simp [indexed]
    refine ⟨fun e => ?_, fun e => ?_, identifier_indexed hid j⟩
    · rw [e] at this; revert this; decide
    · rw [e] at this; revert this; decide

/-- **C03 (legal).** After any script, the architecture generated from a layer is legal as soon as one of the connected layers
is an input layer called `Input` to which no wire leads, and no name given to a layer contains a line break: every layer has a
type and a dictionary of connections, all names are identifiers, and every connection ends at a layer of the architecture. -/
theorem C03_legal (ops : List Op) (enum : List Nat → List Nat) (henum : ∀ l, (enum l).Perm l)
    (i : Nat) (hi : i < (created ops).length) (a : Arch) (ha : Generates (run ops) enum i a)
    (hnl : ∀ k b, Connected ops i k → (created ops)[k]? = some b → '\n' ∉ b)
    (inp : Nat) (h1 : Connected ops i inp) (h2 : HasName (run ops) inp (str "Input"))
    (h3 : (createdTypes ops).getD inp [] = str "Input") (h4 : ∀ w ∈ wires 0 ops, w.dst ≠ inp) : WellFormed a := by
  have hinv := inv_run ops
  obtain ⟨a', g1, g2, g3, g4⟩ := C03_content ops enum henum i hi
  cases ha.unique g1
  have hlt : ∀ k, Connected ops i k → k < (created ops).length := fun k hk => by
    rw [← hinv.count]; exact connected_lt ops (hinv.count ▸ hi) hk
  have hentry : ∀ n d, (n, d) ∈ a → ∃ k m, Connected ops i k ∧ HasName (run ops) k n ∧
      d = ⟨.string ((createdTypes ops).getD k []), .dict m⟩ := by
    intro n d hd
    obtain ⟨k, hk, hn⟩ := (g3 n).1 (List.mem_map_of_mem hd)
    obtain ⟨m, hm, -⟩ := g4 k n hk hn
    have := Dict.get?_of_mem g2 hd
    rw [hm] at this
    exact ⟨k, m, hk, hn, (Option.some.inj this).symm⟩
  refine ⟨?_, ?_, ?_, ?_, ?_, ?_⟩
  · intro n d hd
    obtain ⟨k, m, -, -, rfl⟩ := hentry n d hd
    exact ⟨_, rfl⟩
  · intro n d hd
    obtain ⟨k, m, -, -, rfl⟩ := hentry n d hd
    exact .inr ⟨_, rfl⟩
  · intro n hn
    obtain ⟨k, hk, hkn⟩ := (g3 n).1 hn
    obtain ⟨b, hb⟩ : ∃ b, (created ops)[k]? = some b := ⟨_, List.getElem?_eq_getElem (hlt k hk)⟩
    obtain ⟨v1, v2, v3⟩ := legal_name ops (hlt k hk) hb (hnl k b hk hb) hkn
    exact ⟨v1, v2, .inl v3⟩
  · intro c hc
    obtain ⟨w, hw, hcon, -, hdst, -⟩ := (C03_connections ops enum henum i hi a ha c).1 hc
    exact (g3 _).2 ⟨w.dst, .trans _ _ _ hcon (.rel _ _ ⟨w, hw, rfl, rfl⟩), hdst⟩
  · obtain ⟨m, hm, -⟩ := g4 inp _ h1 h2
    refine ⟨_, Dict.mem_of_get? hm, ?_⟩
    simp only [h3]
  · intro c hc he
    obtain ⟨w, hw, hcon, -, hdst, -⟩ := (C03_connections ops enum henum i hi a ha c).1 hc
    rw [he] at hdst
    have hwc : Connected ops i w.dst := .trans _ _ _ hcon (.rel _ _ ⟨w, hw, rfl, rfl⟩)
    by_cases hne : w.dst = inp
    · exact h4 w hw hne
    · exact C01_names_distinct ops _ _ (hlt _ hwc) (hlt _ h1) hne (.trans _ _ _ (.symm _ _ hwc) h1) _ _ hdst h2 rfl

/-- Two connected layers, the first one the input layer. -/
example : ∃ a, Generates (run [.create (str "InputLayerImpl") none, .create (str "LossLayerImpl") none,
    .connect 0 (str "default") (str "default") 1]) id 0 a ∧ WellFormed a := by
  generalize hops : [Op.create (str "InputLayerImpl") none, .create (str "LossLayerImpl") none,
    .connect 0 (str "default") (str "default") 1] = ops
  have hc : created ops = [str "Input", str "Loss"] := by rw [← hops]; decide +kernel
  have ht : createdTypes ops = [str "Input", str "Loss"] := by rw [← hops]; decide +kernel
  have hw : wires 0 ops = [⟨0, str "default", str "default", 1⟩] := by rw [← hops]; decide +kernel
  have hi : 0 < (created ops).length := by rw [hc]; decide
  obtain ⟨a, ha, -⟩ := C03_content ops id (fun l => .refl l) 0 hi
  refine ⟨a, ha, C03_legal ops id (fun l => .refl l) 0 hi a ha ?_ 0 (.refl _) ?_ ?_ ?_⟩
  · intro k b _ hb
    rw [hc] at hb
    have := List.mem_of_getElem? hb
    revert b
    simp only [List.mem_cons, List.not_mem_nil, or_false]
    rintro b - (rfl | rfl) <;> decide
  · refine C02_sole_name ops 0 _ (by rw [hc]; rfl) ?_
    intro j hj _ h
    rw [hc] at h
    match j, hj with
    | 1, _ => revert h; decide
    | j + 2, _ => simp at h
  · rw [ht]; rfl
  · rw [hw]; simp
end Verif.Construction
