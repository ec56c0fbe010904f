import Verif.Lemmas.DerivCurve
import Verif.Lemmas.Mult
import Verif.Model.Reparam

/-! # Affine images and mirror images of knots -/

namespace Gbs

set_option linter.unusedSectionVars false

variable {K : Type} [Field K] [LinearOrder K] [IsStrictOrderedRing K]
variable {V : Type} [AddCommGroup V] [Module K V]

theorem mapM_ok {α β : Type} {f : α → R β} {g : α → β} : ∀ (l : List α), (∀ x ∈ l, f x = .ok (g x)) →
    l.mapM f = .ok (l.map g) := by
  intro l
  induction l with
  | nil => intro _; rfl
  | cons x l ih =>
    intro h
    rw [List.mapM_cons, h x (by simp), R_bind_ok, ih (fun y hy => h y (by simp [hy]))]
    rfl

theorem kf_map {U : List K} (h : U ≠ []) (f : K → K) (i : ℕ) : kf (U.map f) i = f (kf U i) := by
  unfold kf
  rw [List.getElem?_map]
  rcases Nat.lt_or_ge i U.length with hi | hi
  · simp [hi]
  · simp [hi, List.getLastD_eq_getLast?, List.getLast?_map, List.getLast?_eq_some_getLast h]

/-- Increasing affine images of the knots. -/
theorem Wf.map {p : ℕ} {U : List K} {P : List V} (h : Wf p U P) {f : K → K} (hf : StrictMono f) : Wf p (U.map f) P where
  sorted := by
    rw [List.pairwise_map]
    exact h.sorted.imp fun hab => hf.monotone hab
  len := by rw [List.length_map]; exact h.len
  min := h.min
  first := by rw [kf_map h.ne, kf_map h.ne]; exact hf h.first
  last := by rw [kf_map h.ne, kf_map h.ne]; exact hf h.last

theorem findSpan_map {p : ℕ} {U : List K} {P : List V} (h : Wf p U P) {f : K → K} (hf : StrictMono f) {v : K}
    (h1 : kf U p ≤ v) (h2 : v ≤ kf U P.length) {i : ℕ} (hi : findSpan P.length p v U = .ok i) :
    findSpan P.length p (f v) (U.map f) = .ok i := by
  obtain ⟨j, e, -, -, -, a, -⟩ := findSpan_wf h v
  obtain rfl : j = i := by rw [hi] at e; exact (Except.ok.inj e).symm
  obtain ⟨i', e', -, -, -, b, -⟩ := findSpan_wf (h.map hf) (f v)
  rw [e']
  congr 1
  have hm : ∀ j, kf (U.map f) j = f (kf U j) := kf_map h.ne f
  have b' := b (by rw [hm]; exact hf.monotone h1) (by rw [hm]; exact hf.monotone h2)
  have a' := a h1 h2
  apply InSpan_unique (kf_mono (h.map hf).sorted) b'
  unfold Spec.InSpan at a' ⊢
  simp only [hm, hf.injective.eq_iff, hf.lt_iff_lt, hf.le_iff_le]
  exact a'

theorem bl_affine_knots {t t' : ℕ → K} {g e : K} (hg : g ≠ 0) (ht : ∀ j, t' j = g * t j + e) (k : ℕ) :
    ∀ (xs : List K) (c : ℕ → V), bl t' k c (xs.map (fun x => g * x + e)) = bl t k c xs := by
  intro xs
  induction xs with
  | nil => intro c; rfl
  | cons x xs ih =>
    intro c
    simp only [List.map_cons, bl, List.length_map]
    rw [ih]
    congr 1
    funext i
    unfold dbStep
    rw [ht, ht]
    congr 2
    · rw [← mul_div_mul_left (t (i + (xs.length + 1)) - x) _ hg]; congr 1 <;> ring
    · rw [← mul_div_mul_left (x - t i) _ hg]; congr 1 <;> ring

theorem spanDer_affine_knots {t t' : ℕ → K} {g e : K} (hg : g ≠ 0) (ht : ∀ j, t' j = g * t j + e) {n p k : ℕ}
    (hk : p ≤ k) (hn : k < n) (c : ℕ → V) (d : ℕ) (v : K) :
    spanDer t' n p k c d (g * v + e) = (g⁻¹)^d • spanDer t n p k c d v := by
  have := spanDer_affine (t := t) (t' := t') (c := c) (c' := c) (n := n) (n' := n) (k := k) (k' := k) (a := g⁻¹)
    (b := - g⁻¹ * e) hk hn hk hn (by
      intro v
      rw [← bl_affine_knots hg ht, List.map_replicate]
      congr 2
      field_simp
      ring) d (g * v + e)
  rw [this]
  congr 2
  field_simp
  ring

/-! ## Mirror image -/

theorem kf_mirror {U : List K} {i : ℕ} (h : i < U.length) (f : K → K) :
    kf (U.reverse.map f) i = f (kf U (U.length - 1 - i)) := by
  rw [kf_of_lt (by simpa using h), kf_of_lt (by omega), List.getElem_map, List.getElem_reverse]

theorem pf_reverse {P : List V} {i : ℕ} (h : i < P.length) : pf P.reverse i = pf P (P.length - 1 - i) := by
  unfold pf
  rw [List.getD_eq_getElem?_getD, List.getD_eq_getElem?_getD, List.getElem?_reverse h]

theorem seg_mirror {t t' : ℕ → K} {s : K} {m a q : ℕ} (h : ∀ j, j ≤ m → t' j = s - t (m - j)) (ha : a + q ≤ m + 1) :
    (seg t' a q).map (fun x => s - x) = (seg t (m + 1 - a - q) q).reverse := by
  apply List.ext_getElem
  · simp
  · intro i h1 h2
    simp only [List.length_map, seg_length] at h1
    rw [List.getElem_map, List.getElem_reverse]
    simp only [seg, List.getElem_map, List.getElem_range', List.length_map, List.length_range']
    rw [h _ (by omega), sub_sub_cancel]
    congr 1
    omega

/-- The blossoms of the mirrored curve. -/
theorem bl_mirror {t t' : ℕ → K} (ht : Monotone t) (ht' : Monotone t') {s : K} {n p k : ℕ} {c c' : ℕ → V}
    (h : ∀ j, j ≤ n + p → t' j = s - t (n + p - j)) (hc : ∀ i, i < n → c' i = c (n - 1 - i))
    (hpk : p ≤ k) (hkn : k < n) (hk : t k < t (k+1)) (xs : List K) (hx : xs.length = p) :
    bl t' (n + p - 1 - k) c' xs = bl t k c (xs.map (fun x => s - x)) := by
  subst hx
  have hk' : t' (n + xs.length - 1 - k) < t' (n + xs.length - 1 - k + 1) := by
    rw [h _ (by omega), h _ (by omega), show n + xs.length - (n + xs.length - 1 - k) = k + 1 by omega,
      show n + xs.length - (n + xs.length - 1 - k + 1) = k by omega]
    linarith
  apply bl_unique ht' hk' xs (fun ys => bl t k c (ys.map (fun x => s - x))) c' (by omega)
  · have hb := bl_isBlossom ht hk hpk c
    constructor
    · intro ys zs hy hp
      exact hb.perm (by simpa using hy) (hp.map _)
    · intro ys y z a b hy hab
      simp only [List.map_cons]
      rw [← hb.affine _ _ _ _ _ (by simpa using hy) hab]
      congr 2
      linear_combination -(s * hab)
  · intro i h1 h2
    have e1 : (seg t' (i+1) xs.length).map (fun x => s - x) = (seg t (n - 1 - i + 1) xs.length).reverse := by
      rw [seg_mirror h (by omega)]
      congr 2
      omega
    rw [hc i (by omega)]
    simp only [e1]
    rw [bl_perm ht hk (List.reverse_perm _) c (by simpa using hpk), bl_dual ht hk _ c _ hpk (by omega) (by omega)]

end Gbs
