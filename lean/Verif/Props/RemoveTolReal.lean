import Verif.Props.RemoveTol
import Mathlib.Analysis.Normed.Module.Basic

/-! # C57 over the real numbers -/

namespace Gbs

/-- C57 over the real numbers with the norm of the space: `near` is the test `norm(a - b) <= tol` of the code. -/
theorem C57_removal_error_real {V : Type} [NormedAddCommGroup V] [NormedSpace ℝ V] {eps : ℝ} (heps : 0 < eps) {tol : ℝ}
    {near : V → V → Bool} (hnear : ∀ x y, near x y = true ↔ ‖x - y‖ ≤ tol) {c : Curve ℝ V} (h : c.Good) (hb : c.BigOk eps) {u : ℝ}
    (h1 : c.b0 < u) (h2 : u < c.b1) (hs : 1 ≤ c.knots.count u) (hsp : c.knots.count u ≤ c.deg) :
    ∃ c', c.removeKnot eps near u = .ok c' ∧ c'.Good ∧ c'.b0 = c.b0 ∧ c'.b1 = c.b1 ∧
      (c'.knots = c.knots ∨ c'.poles.length + 1 = c.poles.length ∧ c'.knots.count u + 1 = c.knots.count u) ∧
      ∀ v, c.b0 ≤ v → v ≤ c.b1 → ∀ junk junk', ∃ x y, c.value eps junk v = .ok x ∧ c'.value eps junk' v = .ok y ∧
        ‖x - y‖ ≤ max tol 0 := by
  have hN : IsSeminorm (fun x : V => ‖x‖) := ⟨norm_add_le, fun a x => by rw [norm_smul, Real.norm_eq_abs]⟩
  obtain ⟨T, c', e, e', hT, hl, hc, hg, -, d0, d1, hv⟩ := C57_removal_error heps hN (fun x y hxy => (hnear x y).mp hxy) h hb h1 h2 hs hsp hs
  refine ⟨c', e', hg, d0, d1, ?_, ?_⟩
  · rcases Nat.eq_zero_or_pos T with h0 | h0
    · exact Or.inl ((C49_counts e).2.2 h0).1
    · obtain rfl : T = 1 := by omega
      exact Or.inr ⟨hl, hc⟩
  · intro v v1 v2 junk junk'
    obtain ⟨x, y, hx, hy, hxy⟩ := hv v v1 v2 junk junk'
    refine ⟨x, y, hx, hy, le_trans hxy ?_⟩
    rcases Nat.eq_zero_or_pos T with h0 | h0
    · rw [h0, Nat.cast_zero, zero_mul]; exact le_max_right _ _
    · obtain rfl : T = 1 := by omega
      rw [Nat.cast_one, one_mul]; exact le_max_left _ _

end Gbs
