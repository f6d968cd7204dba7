import Verif.NetSpec.Works
import Verif.Instantiate.Props

/-!
# Property C68: the name of the data
-/

namespace Verif.NetSpec

open Verif.Structure Verif.Setup Verif.Instantiate Verif.Architecture Verif.Construction

theorem mem_keys_inputs (o : Opts) (k : Name) (h : k ∈ Dict.keys o.inputs) :
    k = o.dataName ∨ k = o.targetsName ∨ o.maskName = some k := by
  have hset : ∀ (d : Dict Name (List Tok)) (x v), k ∈ Dict.keys (Dict.set d x v) → k = x ∨ k ∈ Dict.keys d := by
    intro d x v hk
    by_cases hx : x = k
    · exact .inl hx.symm
    · right
      rw [Dict.mem_keys_iff, Dict.get?_set_ne _ _ _ _ hx] at hk
      exact (Dict.mem_keys_iff _ _).2 hk
  have h2 : k ∈ Dict.keys (Dict.set (Dict.set [] o.dataName (tb o.inShape)) o.targetsName (tb o.targetShape)) →
      k = o.dataName ∨ k = o.targetsName := by
    intro hk
    rcases hset _ _ _ hk with h | h
    · exact .inr h
    · rcases hset _ _ _ h with h | h
      · exact .inl h
      · simp [Dict.keys] at h
  unfold Opts.inputs at h
  cases hm : o.maskName with
  | none =>
    simp only [hm] at h
    rcases h2 h with h | h
    · exact .inl h
    · exact .inr (.inl h)
  | some m =>
    simp only [hm] at h
    rcases hset _ _ _ h with h | h
    · subst h; exact .inr (.inr rfl)
    · rcases h2 h with h | h
      · exact .inl h
      · exact .inr (.inl h)

/-- **C68 (limits: the name of the data).** If neither data nor targets nor mask are called `default`, then the network
`create_net_from_spec` builds can never be instantiated: its first connection starts at an output `default` of the input
layer, whatever name was given for the data. -/
theorem C68_data_name (pre : List Op) (o : Opts) (h1 : o.projectionName = none) (h2 : o.outlayerName = none)
    (hd : o.dataName ≠ str "default") (ht : o.targetsName ≠ str "default") (hmk : o.maskName ≠ some (str "default"))
    (docs : List Doc) (s : Script) (hs : stack (created pre).length o (docs.map Doc.made) = some s)
    (enum : List Nat → List Nat) (henum : ∀ l, (enum l).Perm l) :
    ∃ (a : Arch) (nm : Nat → Name), Generates (run (pre ++ s.ops)) enum (created pre).length a ∧
      (∀ i m, s.made[i]? = some m → HasName (run (pre ++ s.ops)) ((created pre).length + i) (nm i)) ∧
      ∀ (kwargs : Name → Kwargs), (∀ i m, s.made[i]? = some m → kwargs (nm i) = m.kw) → ∀ (ord : Orders), ord.Ok →
      ∀ layers, ¬ Instantiates (libEnv kwargs) ord a (.ok layers) := by
  obtain ⟨a, nm, q1, q2, q3, q4, q5, ⟨s0, hs0, hmade, hlen0⟩, q6, q7⟩ := stack_network pre o h1 h2 docs s hs enum henum
  refine ⟨a, nm, q1, fun i m hm => (q6 i m hm).1, ?_⟩
  intro kwargs hkw ord hord layers hinst
  obtain ⟨m2, hm2, hin⟩ : ∃ m, s.made[2]? = some m ∧ m = ⟨str "InputLayerImpl", none, [(str "out_shapes", .shapes o.inputs)]⟩ := by
    rw [hmade]
    clear * - hs0
    unfold getInOut at hs0
    cases hp : o.projection with
    | none => rw [hp] at hs0; cases hs0
    | some proj =>
      cases hc : outClass o.task with
      | none => rw [hp, hc] at hs0; cases hs0
      | some cls =>
        rw [hp, hc] at hs0
        cases hm : o.maskName with
        | none => simp only [hm, Option.some.injEq] at hs0; subst hs0; exact ⟨_, rfl, rfl⟩
        | some mk => simp only [hm, Option.some.injEq] at hs0; subst hs0; exact ⟨_, rfl, rfl⟩
  obtain ⟨order, -, hkeys, hall⟩ := C59_layers (libEnv kwargs) (libEnv_plain kwargs) a q3 ord hord layers hinst
  -- the connection that leaves the input layer
  set x := nm (row o.parts docs.length 1) with hx
  have hc : HasConnection a ⟨nm 2, str "default", x, str "default"⟩ := by
    rw [q7, expected_named]
    exact ⟨_, (mem_numConns _ _ _).2 (.inl ⟨0, Nat.zero_le _, rfl⟩), rfl⟩
  have hxk : x ∈ Dict.keys a := by
    rw [q2.mem_iff, List.mem_map]
    refine ⟨_, ?_, rfl⟩
    have hpos : 4 ≤ o.parts := by unfold Opts.parts; split <;> omega
    have := row_next o.parts docs.length 0 (Nat.zero_le _)
    rw [Nat.zero_add] at this
    rw [List.mem_range]
    omega
  have hlk : ∀ n, n ∈ Dict.keys a → ∃ l, Dict.get? layers n = some l := by
    intro n hn
    obtain ⟨order', ho', hk', -⟩ := C59_layers (libEnv kwargs) (libEnv_plain kwargs) a q3 ord hord layers hinst
    have := (C04_perm a q3 order' ho').mem_iff.2 hn
    rw [← hk', Dict.mem_keys_iff] at this
    exact Option.isSome_iff_exists.1 this
  obtain ⟨l, hl⟩ := hlk x hxk
  obtain ⟨-, -, -, -, -, r1, r2⟩ := hall x l hl
  obtain ⟨sd, hsd⟩ := Option.isSome_iff_exists.1 ((Dict.mem_keys_iff _ _).1 ((r1 (str "default")).2 ⟨_, hc, rfl, rfl⟩))
  obtain ⟨srcs, -, r3, r4, -⟩ := r2 _ _ hsd
  obtain ⟨e, he, hec⟩ := List.mem_map.1 ((r3 _).2 ⟨hc, rfl, rfl⟩)
  obtain ⟨ec, et⟩ := e
  simp only at hec
  subst hec
  obtain ⟨-, l', hl', hoff⟩ := r4 _ _ he
  simp only at hl' hoff
  obtain ⟨d, t, cls, t1, t2, t3, -, t5⟩ := C59_acceptable (libEnv kwargs) a q3 ord layers hinst _ _ hl'
  obtain ⟨d', u1, u2⟩ := (q6 2 m2 hm2).2
  rw [t1] at u1
  cases u1
  rw [t2] at u2
  have ht' : t = m2.typeName := by simpa using u2
  obtain ⟨-, hk2, -⟩ := hall _ _ hl'
  have hk3 : l'.kwargs = m2.kw := hk2.trans (hkw 2 m2 hm2)
  have hcls : cls = Verif.Setup.input.toClass := by
    rw [ht', hin] at t3
    exact (Option.some.inj t3).symm
  rw [hcls, hk3, hin] at t5
  have hshape : Dict.keys l'.shapes.outs = Dict.keys o.inputs := by
    obtain ⟨dd, hdd, hb⟩ := Option.bind_eq_some_iff.1 (show (Verif.Setup.input.decl _ _ _).bind Decl.build = _ from t5)
    simp only [Verif.Setup.input, Made.kw, List.map_cons, List.map_nil, Dict.get?, if_true, toK] at hdd
    split at hdd
    · rename_i sh hsh
      split at hdd
      · cases hdd
        split at hsh
        · cases hsh
          simp only [Decl.build] at hb
          cases h3 : declare (o.inputs.map (fun e => (e.1, mk? e.2))) with
          | none => rw [h3] at hb; simp at hb
          | some outs =>
            rw [h3] at hb
            simp only [declare, Option.some.injEq] at hb
            rw [← hb]
            have := (declare_ok h3).1
            simp only [Dict.keys]
            rw [this, List.map_map]; rfl
        · cases hsh
      · cases hdd
    · cases hdd
  rcases hoff with h | ⟨p, h, -⟩ | ⟨p, h, -⟩
  · have : str "default" ∈ Dict.keys o.inputs := by
      rw [← hshape]; exact (Dict.mem_keys_iff _ _).2 (by rw [h]; rfl)
    rcases mem_keys_inputs o _ this with h | h | h
    · exact hd h.symm
    · exact ht h.symm
    · exact hmk h
  · have := congrArg List.head? h
    simp [str] at this
  · have := congrArg List.head? h
    simp [str] at this

/-! ## Examples -/

/-- A small convolutional network for pictures of 28 by 28 pixels meets the conditions of `C68_works`. -/
def picOpts : Opts := ⟨str "classification", [28, 28, 1], [10], str "default", str "targets", none, none, none, none⟩
def picDocs : List Doc := [.convolution none 20 5 [.padding 2], .pooling none 2 [.stride 2], .dropout none, .fullyConnected none 100]

example : flow picOpts.inShape picDocs = some [100] ∧ picOpts.Projects [100] ∧ picOpts.NamesOk ∧
    flow picOpts.inShape (picDocs.take 2) = some [14, 14, 20] ∧ (stack 0 picOpts (picDocs.map Doc.made)).isSome = true := by
  refine ⟨by decide +kernel, .inl (.inl rfl), ⟨rfl, ⟨⟨by decide, by decide, by decide⟩, by decide +kernel⟩, by simp [picOpts]⟩,
    by decide +kernel, by decide +kernel⟩

/-- A mask and a picture as the result: the projection is a convolution. -/
example : (⟨str "regression", [8, 8, 3], [8, 8, 1], str "default", str "targets", none, none, some (str "mask"), none⟩ : Opts).Projects
    [8, 8, 4] := .inr ⟨8, 8, 4, 1, by omega, by omega, rfl, rfl⟩

/-- Data called `pictures`: the script is built, the network never. -/
example : (stack 0 ⟨str "classification", [28, 28, 1], [10], str "pictures", str "targets", none, none, none, none⟩
    (picDocs.map Doc.made)).isSome = true := by decide +kernel

end Verif.NetSpec
