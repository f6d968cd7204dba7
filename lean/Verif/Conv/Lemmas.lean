import Verif.Conv.Model
import Mathlib.Tactic.Ring
import Mathlib.Tactic.Linarith

/-!
# What the pointer walks of `im2col` and `col2im` do
-/

namespace Verif.Conv

open Verif.Numeric

variable {α : Type}

/-! ### Specification -/

/-- The image with zeros around it: channel `c` of the pixel in row `y` and column `x`. -/
def pixel [Zero α] (g : Geom) (img : Arr α) (y x : Int) (c : Nat) : α :=
  if 0 ≤ y ∧ y < g.H ∧ 0 ≤ x ∧ x < g.W then img.at' ((y.toNat * g.W + x.toNat) * g.C + c) else 0

/-- The patch for output pixel `(h, w)`: offset `(kh, kw)` in the kernel, in image coordinates. -/
def Geom.row (g : Geom) (h kh : Nat) : Int := (h : Int) * g.sh - g.pt + kh

/-- Column of offset `kw` in the patch of output column `w`. -/
def Geom.col (g : Geom) (w kw : Nat) : Int := (w : Int) * g.sw - g.pl + kw

/-- Position in the matrix of patches: one line per output pixel, in a line the patch in
row-major order. -/
def Geom.place (g : Geom) (h w kh kw c : Nat) : Nat := (((h * g.wc + w) * g.KH + kh) * g.KW + kw) * g.C + c

/-! ### Arithmetic -/

theorem lt_mul {a b m n : Nat} (ha : a < m) (hb : b < n) : a * n + b < m * n := by
  calc a * n + b < a * n + n := by omega
    _ = (a + 1) * n := by ring
    _ ≤ m * n := Nat.mul_le_mul_right _ ha

theorem div_of {a b n : Nat} (hb : b < n) : (a * n + b) / n = a := by
  rw [Nat.add_comm, Nat.add_mul_div_right _ _ (by omega), Nat.div_eq_of_lt hb, Nat.zero_add]

theorem mod_of {a b n : Nat} (hb : b < n) : (a * n + b) % n = b := by
  rw [Nat.add_comm, Nat.add_mul_mod_self_right, Nat.mod_eq_of_lt hb]

/-- Number of a patch entry, without the channel. -/
def Geom.num (g : Geom) (h w kh kw : Nat) : Nat := ((h * g.wc + w) * g.KH + kh) * g.KW + kw

/-- Row of the image belonging to patch entry number `q`. -/
def Geom.rowOf (g : Geom) (q : Nat) : Int := g.row (q / g.KW / g.KH / g.wc) (q / g.KW % g.KH)

/-- Column of the image belonging to patch entry number `q`. -/
def Geom.colOf (g : Geom) (q : Nat) : Int := g.col (q / g.KW / g.KH % g.wc) (q % g.KW)

theorem rowOf_num (g : Geom) {h w kh kw : Nat} (hw : w < g.wc) (hkh : kh < g.KH) (hkw : kw < g.KW) :
    g.rowOf (g.num h w kh kw) = g.row h kh := by
  unfold Geom.rowOf Geom.num
  rw [div_of hkw, div_of hkh, div_of hw, mod_of hkh]

theorem colOf_num (g : Geom) {h w kh kw : Nat} (hw : w < g.wc) (hkh : kh < g.KH) (hkw : kw < g.KW) :
    g.colOf (g.num h w kh kw) = g.col w kw := by
  unfold Geom.colOf Geom.num
  rw [div_of hkw, div_of hkh, mod_of hw, mod_of hkw]

theorem num_lt (g : Geom) {h w kh kw : Nat} (hh : h < g.hc) (hw : w < g.wc) (hkh : kh < g.KH) (hkw : kw < g.KW) :
    g.num h w kh kw < g.hc * g.wc * g.KH * g.KW := lt_mul (lt_mul (lt_mul hh hw) hkh) hkw

/-- Number of entries of the matrix of patches. -/
theorem size_eq (g : Geom) : g.px * g.kp = g.hc * g.wc * g.KH * g.KW * g.C := by
  unfold Geom.px Geom.kp; ring

theorem inside {g : Geom} {y x : Int} (h : 0 ≤ y ∧ y < g.H ∧ 0 ≤ x ∧ x < g.W) {c : Nat} (hc : c < g.C) :
    (y.toNat * g.W + x.toNat) * g.C + c < g.H * g.W * g.C ∧
    (y * g.W + x) * g.C + c = (((y.toNat * g.W + x.toNat) * g.C + c : Nat) : Int) := by
  obtain ⟨a, rfl⟩ := Int.eq_ofNat_of_zero_le h.1
  obtain ⟨b, rfl⟩ := Int.eq_ofNat_of_zero_le h.2.2.1
  refine ⟨lt_mul (lt_mul (by simpa using h.2.1) (by simpa using h.2.2.2)) hc, ?_⟩
  push_cast
  simp

/-! ### `im2col` -/

theorem im2colPixel_spec [Zero α] (g : Geom) (img : Arr α) (hi : img.size = g.H * g.W * g.C)
    (ih iw : Int) (q : Nat) (col : Arr α) (hsz : q * g.C + g.C ≤ col.size) :
    ∃ col', im2colPixel g img ih iw ((q * g.C : Nat) : Int) col = some col' ∧ col'.size = col.size ∧
      (∀ j < q * g.C, col'.at' j = col.at' j) ∧
      ∀ c < g.C, col'.at' (q * g.C + c) = pixel g img ih iw c := by
  unfold im2colPixel
  split
  · next hin =>
    obtain ⟨col', h1, h2, h3, h4⟩ := loop_inv (n := g.C)
      (f := fun c col => (img.read ((ih * g.W + iw) * g.C + c)).bind (col.write (((q * g.C : Nat) : Int) + c)))
      (s := col)
      (fun k (s : Arr α) => s.size = col.size ∧ (∀ j < q * g.C, s.at' j = col.at' j) ∧
        ∀ c < k, s.at' (q * g.C + c) = pixel g img ih iw c) (by
        intro k s hk ⟨i1, i2, i3⟩
        obtain ⟨b1, b2⟩ := inside hin hk
        refine ⟨⟨s.size, Function.update s.at' (q * g.C + k) (pixel g img ih iw k)⟩, ?_, i1, ?_, ?_⟩
        · rw [img.read_nat b2 (by rw [hi]; exact b1)]
          simp only [Option.bind_some]
          rw [s.write_nat _ (k := q * g.C + k) (by push_cast; ring) (by omega), pixel, if_pos hin]
        · intro j hj
          rw [← i2 j hj]
          exact Function.update_of_ne (by omega) _ _
        · intro c hc
          by_cases hck : c = k
          · subst hck; exact Function.update_self ..
          · rw [← i3 c (by omega)]
            exact Function.update_of_ne (by omega) _ _) ⟨rfl, fun _ _ => rfl, by simp⟩
    exact ⟨col', h1, h2, h3, h4⟩
  · next hin =>
    obtain ⟨col', h1, h2, h3, h4⟩ := loop_inv (n := g.C)
      (f := fun c col => col.write (((q * g.C : Nat) : Int) + c) (0 : α))
      (s := col)
      (fun k (s : Arr α) => s.size = col.size ∧ (∀ j < q * g.C, s.at' j = col.at' j) ∧
        ∀ c < k, s.at' (q * g.C + c) = pixel g img ih iw c) (by
        intro k s hk ⟨i1, i2, i3⟩
        refine ⟨⟨s.size, Function.update s.at' (q * g.C + k) 0⟩, ?_, i1, ?_, ?_⟩
        · rw [s.write_nat _ (k := q * g.C + k) (by push_cast; ring) (by omega)]
        · intro j hj
          rw [← i2 j hj]
          exact Function.update_of_ne (by omega) _ _
        · intro c hc
          by_cases hck : c = k
          · subst hck
            rw [pixel, if_neg hin]
            exact Function.update_self ..
          · rw [← i3 c (by omega)]
            exact Function.update_of_ne (by omega) _ _) ⟨rfl, fun _ _ => rfl, by simp⟩
    exact ⟨col', h1, h2, h3, h4⟩

/-- The first `q` patch entries have been written. -/
def ColInv [Zero α] (g : Geom) (img : Arr α) (q : Nat) (idx : Int) (col : Arr α) : Prop :=
  idx = ((q * g.C : Nat) : Int) ∧ col.size = g.hc * g.wc * g.KH * g.KW * g.C ∧
  ∀ q' < q, ∀ c < g.C, col.at' (q' * g.C + c) = pixel g img (g.rowOf q') (g.colOf q') c

theorem im2col_inv [Zero α] (g : Geom) (hs : g.sh ≠ 0 ∧ g.sw ≠ 0) (img : Arr α)
    (hi : img.size = g.H * g.W * g.C) (col : Arr α) (hc : col.size = g.hc * g.wc * g.KH * g.KW * g.C) :
    ∃ col', im2col g img col = some col' ∧ ∃ idx, ColInv g img (g.hc * g.wc * g.KH * g.KW) idx col' := by
  unfold im2col
  rw [if_neg (by omega)]
  have step : ∀ h w kh kw, h < g.hc → w < g.wc → kh < g.KH → kw < g.KW → ∀ t : Int × Arr α,
      ColInv g img (g.num h w kh kw) t.1 t.2 →
      ∃ t', (im2colPixel g img (g.row h kh) (g.col w kw) t.1 t.2).map (fun col => (t.1 + g.C, col)) = some t' ∧
        ColInv g img (g.num h w kh kw + 1) t'.1 t'.2 := by
    rintro h w kh kw hh hw hkh hkw ⟨idx, c⟩ ⟨i1, i2, i3⟩
    simp only at i1 i2 i3 ⊢
    have hlt := num_lt g hh hw hkh hkw
    obtain ⟨c', h1, h2, h3, h4⟩ := im2colPixel_spec g img hi (g.row h kh) (g.col w kw) (g.num h w kh kw) c
      (by
        rw [i2]
        calc _ = (g.num h w kh kw + 1) * g.C := by ring
          _ ≤ _ := Nat.mul_le_mul_right _ hlt)
    refine ⟨(idx + g.C, c'), by rw [i1, h1]; rfl, ?_, by rw [h2, i2], ?_⟩
    · simp only [i1]; push_cast; ring
    · intro q' hq' d hd
      by_cases hq : q' = g.num h w kh kw
      · subst hq
        rw [h4 d hd, rowOf_num g hw hkh hkw, colOf_num g hw hkh hkw]
      · rw [h3 _ (lt_of_lt_of_le (lt_mul (show q' < g.num h w kh kw by omega) hd) (le_refl _)), i3 q' (by omega) d hd]
  obtain ⟨s, h1, h2⟩ := loop_inv (n := g.hc) (s := (-(g.pt : Int), (0 : Int), col))
    (f := fun _ (s : Int × Int × Arr α) =>
      (loop (fun _ (r : Int × Int × Arr α) =>
        (loop (fun kh (t : Int × Arr α) =>
          loop (fun kw (t : Int × Arr α) =>
            (im2colPixel g img (s.1 + kh) (r.1 + kw) t.1 t.2).map (fun col => (t.1 + g.C, col)))
            g.KW t)
          g.KH r.2).map (fun t => (r.1 + g.sw, t)))
        g.wc (-(g.pl : Int), s.2)).map (fun r => (s.1 + g.sh, r.2)))
    (fun h s => s.1 = (h : Int) * g.sh - g.pt ∧ ColInv g img (h * g.wc * g.KH * g.KW) s.2.1 s.2.2) (by
      rintro h ⟨hp, idx, c⟩ hh ⟨e1, e2⟩
      simp only at e1 e2 ⊢
      obtain ⟨s2, h3, h4⟩ := loop_inv (n := g.wc) (s := (-(g.pl : Int), idx, c))
        (f := fun _ (r : Int × Int × Arr α) =>
          (loop (fun kh (t : Int × Arr α) =>
            loop (fun kw (t : Int × Arr α) =>
              (im2colPixel g img (hp + kh) (r.1 + kw) t.1 t.2).map (fun col => (t.1 + g.C, col)))
              g.KW t)
            g.KH r.2).map (fun t => (r.1 + g.sw, t)))
        (fun w s => s.1 = (w : Int) * g.sw - g.pl ∧
          ColInv g img ((h * g.wc + w) * g.KH * g.KW) s.2.1 s.2.2) (by
          rintro w ⟨wp, idx, c⟩ hw ⟨e3, e4⟩
          simp only at e3 e4 ⊢
          obtain ⟨s3, h5, h6⟩ := loop_inv (n := g.KH) (s := (idx, c))
            (f := fun kh (t : Int × Arr α) =>
              loop (fun kw (t : Int × Arr α) =>
                (im2colPixel g img (hp + kh) (wp + kw) t.1 t.2).map (fun col => (t.1 + g.C, col)))
                g.KW t)
            (fun kh s => ColInv g img (((h * g.wc + w) * g.KH + kh) * g.KW) s.1 s.2) (by
              rintro kh ⟨idx, c⟩ hkh e5
              simp only at e5 ⊢
              obtain ⟨s4, h7, h8⟩ := loop_inv (n := g.KW) (s := (idx, c))
                (f := fun kw (t : Int × Arr α) =>
                  (im2colPixel g img (hp + kh) (wp + kw) t.1 t.2).map (fun col => (t.1 + g.C, col)))
                (fun kw s => ColInv g img (g.num h w kh kw) s.1 s.2) (by
                  intro kw t hkw e6
                  have r1 : hp + kh = g.row h kh := by rw [e1]; rfl
                  have r2 : wp + kw = g.col w kw := by rw [e3]; rfl
                  rw [r1, r2]
                  exact step h w kh kw hh hw hkh hkw t e6)
                (by simpa [Geom.num] using e5)
              refine ⟨s4, h7, ?_⟩
              have : g.num h w kh g.KW = ((h * g.wc + w) * g.KH + (kh + 1)) * g.KW := by
                unfold Geom.num; ring
              rw [← this]; exact h8)
            (by simpa using e4)
          refine ⟨(wp + g.sw, s3), by rw [h5]; rfl, ?_, ?_⟩
          · simp only [e3]; push_cast; ring
          · have : (h * g.wc + w) * g.KH + g.KH = (h * g.wc + (w + 1)) * g.KH := by ring
            rw [← this]; exact h6)
        ⟨by simp, by simpa using e2⟩
      refine ⟨(hp + g.sh, s2.2), by rw [h3]; rfl, ?_, ?_⟩
      · simp only [e1]; push_cast; ring
      · have : (h + 1) * g.wc = h * g.wc + g.wc := by ring
        rw [this]; exact h4.2)
    ⟨by simp, by simp, by simpa using hc, by simp⟩
  exact ⟨s.2.2, by rw [h1]; rfl, s.2.1, h2.2⟩

/-! ### `col2im` -/

variable [CommRing α]

theorem col2imPixel_spec (g : Geom) (col img : Arr α) (hi : img.size = g.H * g.W * g.C)
    {y x : Int} (hin : 0 ≤ y ∧ y < g.H ∧ 0 ≤ x ∧ x < g.W) (q : Nat) (hsz : q * g.C + g.C ≤ col.size) :
    ∃ img', col2imPixel g col ((y * g.W + x) * g.C) ((q * g.C : Nat) : Int) img = some img' ∧
      img'.size = img.size ∧ ∀ p, img'.at' p = img.at' p + ∑ c ∈ Finset.range g.C,
        if (y.toNat * g.W + x.toNat) * g.C + c = p then col.at' (q * g.C + c) else 0 := by
  unfold col2imPixel
  obtain ⟨img', h1, h2, h3⟩ := loop_inv (n := g.C) (s := img)
    (f := fun c (img : Arr α) => (img.read ((y * g.W + x) * g.C + c)).bind (fun old =>
      (col.read (((q * g.C : Nat) : Int) + c)).bind (fun v => img.write ((y * g.W + x) * g.C + c) (old + v))))
    (fun k (s : Arr α) => s.size = img.size ∧ ∀ p, s.at' p = img.at' p + ∑ c ∈ Finset.range k,
        if (y.toNat * g.W + x.toNat) * g.C + c = p then col.at' (q * g.C + c) else 0) (by
      intro k s hk ⟨i1, i2⟩
      obtain ⟨b1, b2⟩ := inside hin hk
      have hk' : (y.toNat * g.W + x.toNat) * g.C + k < s.size := by rw [i1, hi]; exact b1
      refine ⟨⟨s.size, Function.update s.at' ((y.toNat * g.W + x.toNat) * g.C + k)
        (s.at' ((y.toNat * g.W + x.toNat) * g.C + k) + col.at' (q * g.C + k))⟩, ?_, i1, ?_⟩
      · rw [s.read_nat b2 hk']
        simp only [Option.bind_some]
        rw [col.read_nat (k := q * g.C + k) (by push_cast; ring) (by omega)]
        simp only [Option.bind_some]
        rw [s.write_nat _ b2 hk']
      · intro p
        rw [Finset.sum_range_succ, ← add_assoc, ← i2]
        by_cases hp : (y.toNat * g.W + x.toNat) * g.C + k = p
        · subst hp
          rw [if_pos rfl]
          exact Function.update_self ..
        · rw [if_neg hp, add_zero]
          exact Function.update_of_ne (Ne.symm hp) _ _) ⟨rfl, by simp⟩
  exact ⟨img', h1, h2, h3⟩

/-- What patch entry number `q` adds to position `p` of the image. -/
def contrib (g : Geom) (col : Arr α) (p q : Nat) : α :=
  if 0 ≤ g.rowOf q ∧ g.rowOf q < g.H ∧ 0 ≤ g.colOf q ∧ g.colOf q < g.W then
    ∑ c ∈ Finset.range g.C, if ((g.rowOf q).toNat * g.W + (g.colOf q).toNat) * g.C + c = p then
      col.at' (q * g.C + c) else 0
  else 0

/-- The first `q` patch entries have been added to the image. -/
def ImInv (g : Geom) (col img0 : Arr α) (q : Nat) (idx : Int) (img : Arr α) : Prop :=
  idx = ((q * g.C : Nat) : Int) ∧ img.size = g.H * g.W * g.C ∧
  ∀ p, img.at' p = img0.at' p + ∑ q' ∈ Finset.range q, contrib g col p q'

theorem col2im_inv (g : Geom) (hs : g.sh ≠ 0 ∧ g.sw ≠ 0) (col img : Arr α)
    (hi : img.size = g.H * g.W * g.C) (hc : col.size = g.hc * g.wc * g.KH * g.KW * g.C) :
    ∃ img', col2im g col img = some img' ∧ ∃ idx, ImInv g col img (g.hc * g.wc * g.KH * g.KW) idx img' := by
  unfold col2im
  rw [if_neg (by omega)]
  have step : ∀ h w kh kw, h < g.hc → w < g.wc → kh < g.KH → kw < g.KW → ∀ t : Int × Int × Arr α,
      t.1 = (g.row h kh * g.W + g.col w kw) * g.C → ImInv g col img (g.num h w kh kw) t.2.1 t.2.2 →
      ∃ t', (if 0 ≤ g.row h kh ∧ g.row h kh < g.H ∧ 0 ≤ g.col w kw ∧ g.col w kw < g.W then
              col2imPixel g col t.1 t.2.1 t.2.2 else some t.2.2).map
              (fun img => (t.1 + g.C, t.2.1 + g.C, img)) = some t' ∧
        t'.1 = (g.row h kh * g.W + g.col w (kw + 1)) * g.C ∧
        ImInv g col img (g.num h w kh kw + 1) t'.2.1 t'.2.2 := by
    rintro h w kh kw hh hw hkh hkw ⟨pat, idx, im⟩ e0 ⟨i1, i2, i3⟩
    simp only at e0 i1 i2 i3 ⊢
    have hlt := num_lt g hh hw hkh hkw
    have hnext : pat + g.C = (g.row h kh * g.W + g.col w (kw + 1)) * g.C := by
      rw [e0]; unfold Geom.col; push_cast; ring
    have hidx : idx + g.C = (((g.num h w kh kw + 1) * g.C : Nat) : Int) := by rw [i1]; push_cast; ring
    by_cases hin : 0 ≤ g.row h kh ∧ g.row h kh < g.H ∧ 0 ≤ g.col w kw ∧ g.col w kw < g.W
    · rw [if_pos hin]
      obtain ⟨im', h1, h2, h3⟩ := col2imPixel_spec g col im i2 hin (g.num h w kh kw) (by
        rw [hc]
        calc _ = (g.num h w kh kw + 1) * g.C := by ring
          _ ≤ _ := Nat.mul_le_mul_right _ hlt)
      refine ⟨(pat + g.C, idx + g.C, im'), by rw [e0, i1, h1]; rfl, hnext, hidx, by rw [h2, i2], ?_⟩
      intro p
      rw [h3 p, i3 p, Finset.sum_range_succ, ← add_assoc]
      congr 1
      rw [contrib, rowOf_num g hw hkh hkw, colOf_num g hw hkh hkw, if_pos hin]
    · rw [if_neg hin]
      refine ⟨(pat + g.C, idx + g.C, im), rfl, hnext, hidx, i2, ?_⟩
      intro p
      rw [i3 p, Finset.sum_range_succ, ← add_assoc]
      rw [contrib, rowOf_num g hw hkh hkw, colOf_num g hw hkh hkw, if_neg hin, add_zero]
  obtain ⟨s, h1, h2⟩ := loop_inv (n := g.hc) (s := (-(g.pt : Int), (0 : Int), img))
    (f := fun _ (s : Int × Int × Arr α) =>
      (loop (fun _ (r : Int × Int × Arr α) =>
        (loop (fun kh (t : Int × Int × Arr α) =>
          (loop (fun kw (t : Int × Int × Arr α) =>
            (if 0 ≤ s.1 + kh ∧ s.1 + kh < g.H ∧ 0 ≤ r.1 + kw ∧ r.1 + kw < g.W then
              col2imPixel g col t.1 t.2.1 t.2.2 else some t.2.2).map
              (fun img => (t.1 + g.C, t.2.1 + g.C, img)))
            g.KW t).map (fun t => (t.1 + g.C * ((g.W : Int) - g.KW), t.2)))
          g.KH ((s.1 * g.W + r.1) * g.C, r.2)).map (fun t => (r.1 + g.sw, t.2)))
        g.wc (-(g.pl : Int), s.2)).map (fun r => (s.1 + g.sh, r.2)))
    (fun h s => s.1 = (h : Int) * g.sh - g.pt ∧ ImInv g col img (h * g.wc * g.KH * g.KW) s.2.1 s.2.2) (by
      rintro h ⟨hp, idx, im⟩ hh ⟨e1, e2⟩
      simp only at e1 e2 ⊢
      obtain ⟨s2, h3, h4⟩ := loop_inv (n := g.wc) (s := (-(g.pl : Int), idx, im))
        (f := fun _ (r : Int × Int × Arr α) =>
          (loop (fun kh (t : Int × Int × Arr α) =>
            (loop (fun kw (t : Int × Int × Arr α) =>
              (if 0 ≤ hp + kh ∧ hp + kh < g.H ∧ 0 ≤ r.1 + kw ∧ r.1 + kw < g.W then
                col2imPixel g col t.1 t.2.1 t.2.2 else some t.2.2).map
                (fun img => (t.1 + g.C, t.2.1 + g.C, img)))
              g.KW t).map (fun t => (t.1 + g.C * ((g.W : Int) - g.KW), t.2)))
            g.KH ((hp * g.W + r.1) * g.C, r.2)).map (fun t => (r.1 + g.sw, t.2)))
        (fun w s => s.1 = (w : Int) * g.sw - g.pl ∧
          ImInv g col img ((h * g.wc + w) * g.KH * g.KW) s.2.1 s.2.2) (by
          rintro w ⟨wp, idx, im⟩ hw ⟨e3, e4⟩
          simp only at e3 e4 ⊢
          obtain ⟨s3, h5, h6⟩ := loop_inv (n := g.KH) (s := ((hp * g.W + wp) * g.C, idx, im))
            (f := fun kh (t : Int × Int × Arr α) =>
              (loop (fun kw (t : Int × Int × Arr α) =>
                (if 0 ≤ hp + kh ∧ hp + kh < g.H ∧ 0 ≤ wp + kw ∧ wp + kw < g.W then
                  col2imPixel g col t.1 t.2.1 t.2.2 else some t.2.2).map
                  (fun img => (t.1 + g.C, t.2.1 + g.C, img)))
                g.KW t).map (fun t => (t.1 + g.C * ((g.W : Int) - g.KW), t.2)))
            (fun kh s => s.1 = ((hp + kh) * g.W + wp) * g.C ∧
              ImInv g col img (((h * g.wc + w) * g.KH + kh) * g.KW) s.2.1 s.2.2) (by
              rintro kh ⟨pat, idx, im⟩ hkh ⟨e5, e6⟩
              simp only at e5 e6 ⊢
              have r1 : ∀ kh : Nat, hp + kh = g.row h kh := by intro kh; rw [e1]; rfl
              have r2 : ∀ kw : Nat, wp + kw = g.col w kw := by intro kw; rw [e3]; rfl
              obtain ⟨s4, h7, h8, h9⟩ := loop_inv (n := g.KW) (s := (pat, idx, im))
                (f := fun kw (t : Int × Int × Arr α) =>
                  (if 0 ≤ hp + kh ∧ hp + kh < g.H ∧ 0 ≤ wp + kw ∧ wp + kw < g.W then
                    col2imPixel g col t.1 t.2.1 t.2.2 else some t.2.2).map
                    (fun img => (t.1 + g.C, t.2.1 + g.C, img)))
                (fun kw s => s.1 = (g.row h kh * g.W + g.col w kw) * g.C ∧
                  ImInv g col img (g.num h w kh kw) s.2.1 s.2.2) (by
                  rintro kw t hkw ⟨e7, e8⟩
                  rw [r1, r2]
                  exact step h w kh kw hh hw hkh hkw t e7 e8)
                ⟨by simp only [e5, ← r1, ← r2]; push_cast; ring, by simpa [Geom.num] using e6⟩
              refine ⟨(s4.1 + g.C * ((g.W : Int) - g.KW), s4.2), by rw [h7]; rfl, ?_, ?_⟩
              · simp only [h8, ← r1, ← r2]; push_cast; ring
              · have : g.num h w kh g.KW = ((h * g.wc + w) * g.KH + (kh + 1)) * g.KW := by
                  unfold Geom.num; ring
                rw [← this]; exact h9)
            ⟨by push_cast; ring, by simpa using e4⟩
          refine ⟨(wp + g.sw, s3.2), by rw [h5]; rfl, ?_, ?_⟩
          · simp only [e3]; push_cast; ring
          · have : (h * g.wc + w) * g.KH + g.KH = (h * g.wc + (w + 1)) * g.KH := by ring
            rw [← this]; exact h6.2)
        ⟨by simp, by simpa using e2⟩
      refine ⟨(hp + g.sh, s2.2), by rw [h3]; rfl, ?_, ?_⟩
      · simp only [e1]; push_cast; ring
      · have : (h + 1) * g.wc = h * g.wc + g.wc := by ring
        rw [this]; exact h4.2)
    ⟨by simp, by simp, by simpa using hi, by simp⟩
  exact ⟨s.2.2, by rw [h1]; rfl, s.2.1, h2.2⟩

end Verif.Conv
