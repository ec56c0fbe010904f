import Verif.Props.MeshSpec
import Mathlib.Tactic.IntervalCases

/-!
# C38: flipping the common edge of two triangles
-/

namespace Gbs

variable {P : Type} {h : Mesh P} {F : List ℕ}

theorem deref_some (x : ℕ) : deref (some x) = .ok x := rfl

theorem oppFaceIs_iff {e f : ℕ} : h.oppFaceIs e f = true ↔ ∃ o, (h.he e).opp = some o ∧ (h.he o).face = some f := by
  unfold Mesh.oppFaceIs
  cases (h.he e).opp with
  | none => simp
  | some o => simp

/-- What `flip` does to two triangles. -/
theorem flip_spec (H : Spec.Valid h F) {f1 f2 : ℕ} (hf1 : f1 ∈ F) (hne : f1 ≠ f2) :
    ((∀ e o, (h.he e).face = some f1 → (h.he e).opp = some o → (h.he o).face ≠ some f2) ∧ h.flip f1 f2 = .ok h) ∨
    ∃ e11 e21 e31 e12 e22 e32 v1 v2 v3 v4 h', Tri h f1 e11 e21 e31 ∧ Tri h f2 e12 e22 e32 ∧ (h.he e11).opp = some e12 ∧
      (h.he e12).opp = some e11 ∧
      (h.he e11).vertex = some v1 ∧ (h.he e21).vertex = some v2 ∧ (h.he e31).vertex = some v3 ∧ (h.he e22).vertex = some v4 ∧
      (h.he e32).vertex = some v1 ∧ (h.he e12).vertex = some v3 ∧
      h.flip f1 f2 = .ok h' ∧ h'.co = h.co ∧ h'.nE = h.nE ∧ h'.nV = h.nV ∧ h'.nF = h.nF ∧
      h'.fe = Function.update (Function.update h.fe f1 (some e11)) f2 (some e12) ∧
      h'.he e11 = ⟨some v4, some f1, some e32, some e21, some e12⟩ ∧
      h'.he e32 = ⟨some v1, some f1, some e21, some e11, (h.he e32).opp⟩ ∧
      h'.he e21 = ⟨some v2, some f1, some e11, some e32, (h.he e21).opp⟩ ∧
      h'.he e12 = ⟨some v2, some f2, some e31, some e22, some e11⟩ ∧
      h'.he e31 = ⟨some v3, some f2, some e22, some e12, (h.he e31).opp⟩ ∧
      h'.he e22 = ⟨some v4, some f2, some e12, some e31, (h.he e22).opp⟩ ∧
      (∀ e, e ≠ e11 → e ≠ e21 → e ≠ e31 → e ≠ e12 → e ≠ e22 → e ≠ e32 → h'.he e = h.he e) ∧
      h'.ve v1 ≠ some e11 ∧ h'.ve v3 ≠ some e12 ∧
      (∀ v, h'.ve v = h.ve v ∨ v = v4 ∧ h'.ve v = some e11 ∨ v = v2 ∧ h'.ve v = some e12 ∨ v = v1 ∧ h'.ve v = some e32 ∨
        v = v3 ∧ h'.ve v = some e31) := by
  obtain ⟨a, b, c, t, hfe⟩ := H.tri hf1
  have hg : h.getCommonEdge f1 f2 = .ok ([a, b, c].find? fun e => h.oppFaceIs e f2) := by
    unfold Mesh.getCommonEdge
    rw [H.getFaceEdges t hfe]; rfl
  cases hfind : [a, b, c].find? (fun e => h.oppFaceIs e f2) with
  | none =>
    left
    constructor
    · intro e o he ho hc
      rw [List.find?_eq_none] at hfind
      exact hfind e (by simpa using t.own e he) (oppFaceIs_iff.mpr ⟨o, ho, hc⟩)
    · unfold Mesh.flip
      rw [hg, hfind]; rfl
  | some e11 =>
    right
    have hm := List.mem_of_find?_eq_some hfind
    obtain ⟨e12, ho1, hface2⟩ := oppFaceIs_iff.mp (List.find?_some (p := fun e => h.oppFaceIs e f2) hfind)
    have hface1 : (h.he e11).face = some f1 := by
      simp at hm
      rcases hm with rfl | rfl | rfl
      exacts [t.fa, t.fb, t.fc]
    obtain ⟨e21, e31, t1⟩ := H.triAt hf1 hface1
    obtain ⟨hlive2, ho2, p, hp, hv⟩ := H.opp e11 e12 ⟨f1, hf1, hface1⟩ ho1
    have hf2 : f2 ∈ F := by
      obtain ⟨g, hg, hg'⟩ := hlive2
      rw [hface2] at hg'; cases hg'; exact hg
    obtain ⟨e22, e32, t2⟩ := H.triAt hf2 hface2
    obtain ⟨v1, hv1, -⟩ := H.vertex e11 ⟨f1, hf1, t1.fa⟩
    obtain ⟨v2, hv2, -⟩ := H.vertex e21 ⟨f1, hf1, t1.fb⟩
    obtain ⟨v3, hv3, -⟩ := H.vertex e31 ⟨f1, hf1, t1.fc⟩
    obtain ⟨v4, hv4, -⟩ := H.vertex e22 ⟨f2, hf2, t2.fb⟩
    have hv12 : (h.he e12).vertex = some v3 := by
      rw [hv]; rw [t1.pa] at hp; cases hp; exact hv3
    have hv32 : (h.he e32).vertex = some v1 := by
      obtain ⟨-, -, p', hp', hv'⟩ := H.opp e12 e11 hlive2 ho2
      rw [t2.pa] at hp'; cases hp'; rw [← hv']; exact hv1
    have dis : ∀ x y, (h.he x).face = some f1 → (h.he y).face = some f2 → x ≠ y := by
      rintro x y hx hy rfl
      rw [hx] at hy; cases hy; exact hne rfl
    have d1 := dis e11 e12 t1.fa t2.fa
    have d2 := dis e11 e22 t1.fa t2.fb
    have d3 := dis e11 e32 t1.fa t2.fc
    have d4 := dis e21 e12 t1.fb t2.fa
    have d5 := dis e21 e22 t1.fb t2.fb
    have d6 := dis e21 e32 t1.fb t2.fc
    have d7 := dis e31 e12 t1.fc t2.fa
    have d8 := dis e31 e22 t1.fc t2.fb
    have d9 := dis e31 e32 t1.fc t2.fc
    set hB : Mesh P := (((((h.setE e11 fun r => { r with vertex := some v4 }).setVE v4 (some e11))).setE e12
      fun r => { r with vertex := some v2 }).setVE v2 (some e12)) with hBdef
    set hC : Mesh P := if hB.ve v1 = some e11 then hB.setVE v1 (some e32) else hB with hCdef
    set hD : Mesh P := if hC.ve v3 = some e12 then hC.setVE v3 (some e31) else hC with hDdef
    have heB : hB.he = Function.update (Function.update h.he e11 { h.he e11 with vertex := some v4 }) e12
        { h.he e12 with vertex := some v2 } := by
      simp [hBdef, Mesh.setE, Mesh.setVE, d1.symm]
    have rest : hD.he = hB.he ∧ hD.fe = h.fe ∧ hD.co = h.co ∧ hD.nE = h.nE ∧ hD.nV = h.nV ∧ hD.nF = h.nF := by
      have c1 : hC.he = hB.he ∧ hC.fe = h.fe ∧ hC.co = h.co ∧ hC.nE = h.nE ∧ hC.nV = h.nV ∧ hC.nF = h.nF := by
        rw [hCdef]; split <;> exact ⟨rfl, rfl, rfl, rfl, rfl, rfl⟩
      rw [hDdef]; split <;> exact c1
    obtain ⟨r1, r2, r3, r4, r5, r6⟩ := rest
    obtain ⟨h5, q1, q2, q3, q4, q5, q6, q7, q8, q9, q10, q11⟩ := hD.makeLoop3 d3 d6.symm t1.ab.symm f1
    obtain ⟨h6, p1, p2, p3, p4, p5, p6, p7, p8, p9, p10, p11⟩ := h5.makeLoop3 d7.symm d8 t2.ab.symm f2
    have veB : ∀ v, hB.ve v = if v = v2 then some e12 else if v = v4 then some e11 else h.ve v := by
      intro v
      simp only [hBdef, Mesh.setE, Mesh.setVE, Function.update_apply]
    have veC : ∀ v, hC.ve v = if v = v1 ∧ hB.ve v1 = some e11 then some e32 else hB.ve v := by
      intro v
      rw [hCdef]
      by_cases hc : hB.ve v1 = some e11
      · simp only [hc, if_true, Mesh.setVE, Function.update_apply, and_true]
      · simp only [hc, if_false, and_false]
    have veD : ∀ v, hD.ve v = if v = v3 ∧ hC.ve v3 = some e12 then some e31 else hC.ve v := by
      intro v
      rw [hDdef]
      by_cases hc : hC.ve v3 = some e12
      · simp only [hc, if_true, Mesh.setVE, Function.update_apply, and_true]
      · simp only [hc, if_false, and_false]
    have ve6 : h6.ve = hD.ve := p4.trans q4
    refine ⟨e11, e21, e31, e12, e22, e32, v1, v2, v3, v4, h6, t1, t2, ho1, ho2, hv1, hv2, hv3, hv4, hv32, hv12, ?_, p3.trans (q3.trans r3),
      p5.trans (q5.trans r4), p6.trans (q6.trans r5), p7.trans (q7.trans r6), by rw [p2, q2, r2], ?_, ?_, ?_, ?_, ?_, ?_, ?_, ?_, ?_, ?_⟩
    · unfold Mesh.flip
      rw [hg, hfind]
      simp only [R_bind_ok, ho1, deref_some, t1.na, t1.nb, t2.na, t2.nb, hv1, hv2, hv3, hv4, Mesh.associate, Mesh.repair, R_pure]
      rw [← hBdef, ← hCdef, ← hDdef, q1, R_bind_ok, p1]
    · rw [p11 e11 d1 t1.ca.symm d2, q8, r1, heB]
      simp [d1, ho1]
    · rw [p11 e32 t2.ca d9.symm t2.bc.symm, q9, r1, heB]
      simp [d3.symm, t2.ca, hv32]
    · rw [p11 e21 d4 t1.bc d5, q10, r1, heB]
      simp [t1.ab.symm, d4, hv2]
    · rw [p8, q11 e12 d1.symm t2.ca.symm d4.symm, r1, heB]
      simp [ho2]
    · rw [p9, q11 e31 t1.ca d9 t1.bc.symm, r1, heB]
      simp [t1.ca, d7, hv3]
    · rw [p10, q11 e22 d2.symm t2.bc d5.symm, r1, heB]
      simp [d2.symm, t2.ab.symm, hv4]
    · intro e n1 n2 n3 n4 n5 n6
      rw [p11 e n4 n3 n5, q11 e n1 n6 n2, r1, heB]
      simp [n1, n4]
    · rw [ve6, veD]
      split
      · simp [t1.ca]
      · rw [veC]
        split
        · simp [d3.symm]
        · rename_i hc
          simpa using hc
    · rw [ve6, veD]
      split
      · simp [d7]
      · rename_i hc
        simpa using hc
    · intro v
      rw [ve6, veD]
      split
      · rename_i hc; exact Or.inr (Or.inr (Or.inr (Or.inr ⟨hc.1, rfl⟩)))
      · rw [veC]
        split
        · rename_i hc; exact Or.inr (Or.inr (Or.inr (Or.inl ⟨hc.1, rfl⟩)))
        · rw [veB]
          split
          · rename_i hc; exact Or.inr (Or.inr (Or.inl ⟨hc, rfl⟩))
          · split
            · rename_i hc; exact Or.inr (Or.inl ⟨hc, rfl⟩)
            · exact Or.inl rfl

/-- C38: flipping two triangles of a valid mesh. Nothing changes when they have no common edge. Otherwise a common edge `a`, `d` becomes the other diagonal
of the quadrangle: `a` ends at the apex of the second triangle and `d` at the apex of the first one, the two faces become the rings `a f b` and `d c e`, the
four sides keep their end vertices and opposites, and everything else is unchanged. The mesh stays valid, and the links from the vertices too. -/
theorem C38_flip (H : Spec.Valid h F) {f1 f2 : ℕ} (hf1 : f1 ∈ F) (hf2 : f2 ∈ F) (hne : f1 ≠ f2) :
    ∃ h', h.flip f1 f2 = .ok h' ∧ Spec.Valid h' F ∧ (Spec.VertexLinks h F → Spec.VertexLinks h' F) ∧
      h'.co = h.co ∧ h'.nE = h.nE ∧ h'.nV = h.nV ∧ h'.nF = h.nF ∧
      ((∀ e o, (h.he e).face = some f1 → (h.he e).opp = some o → (h.he o).face ≠ some f2) → h' = h) ∧
      ((∃ e o, (h.he e).face = some f1 ∧ (h.he e).opp = some o ∧ (h.he o).face = some f2) →
        ∃ a b c d e f, Tri h f1 a b c ∧ Tri h f2 d e f ∧ (h.he a).opp = some d ∧ Tri h' f1 a f b ∧ Tri h' f2 d c e ∧
          (h'.he a).vertex = (h.he e).vertex ∧ (h'.he d).vertex = (h.he b).vertex ∧
          (∀ x, x ≠ a → x ≠ d → (h'.he x).vertex = (h.he x).vertex) ∧ (∀ x, (h'.he x).opp = (h.he x).opp) ∧
          (∀ x, (h.he x).face ≠ some f1 → (h.he x).face ≠ some f2 → h'.he x = h.he x) ∧
          ∀ g, g ≠ f1 → g ≠ f2 → h'.fe g = h.fe g) := by
  rcases flip_spec H hf1 hne with ⟨hno, hok⟩ |
    ⟨e11, e21, e31, e12, e22, e32, v1, v2, v3, v4, h', t1, t2, ho1, ho2, hv11, hv21, hv31, hv22, hv32, hv12, hok, hco, hnE, hnV, hnF, hfe,
      s11, s32, s21, s12, s31, s22, soth, n1, n3, hve⟩
  · refine ⟨h, hok, H, id, rfl, rfl, rfl, rfl, fun _ => rfl, ?_⟩
    rintro ⟨e, o, h1, h2, h3⟩
    exact absurd h3 (hno e o h1 h2)
  have out : ∀ x, (h.he x).face ≠ some f1 → (h.he x).face ≠ some f2 → h'.he x = h.he x := by
    intro x hx1 hx2
    refine soth x ?_ ?_ ?_ ?_ ?_ ?_ <;> rintro rfl
    exacts [hx1 t1.fa, hx1 t1.fb, hx1 t1.fc, hx2 t2.fa, hx2 t2.fb, hx2 t2.fc]
  have dis : ∀ x y, (h.he x).face = some f1 → (h.he y).face = some f2 → x ≠ y := by
    rintro x y hx hy rfl
    rw [hx] at hy; cases hy; exact hne rfl
  have d1 := dis e11 e12 t1.fa t2.fa
  have d2 := dis e11 e22 t1.fa t2.fb
  have d3 := dis e11 e32 t1.fa t2.fc
  have d4 := dis e21 e12 t1.fb t2.fa
  have d5 := dis e21 e22 t1.fb t2.fb
  have d6 := dis e21 e32 t1.fb t2.fc
  have d7 := dis e31 e12 t1.fc t2.fa
  have d8 := dis e31 e22 t1.fc t2.fb
  have d9 := dis e31 e32 t1.fc t2.fc
  -- cases on a half-edge
  have six : ∀ x, (x = e11 ∨ x = e21 ∨ x = e31 ∨ x = e12 ∨ x = e22 ∨ x = e32) ∨
      ((h.he x).face ≠ some f1 ∧ (h.he x).face ≠ some f2) := by
    intro x
    by_cases h1 : (h.he x).face = some f1
    · left; rcases t1.own x h1 with h | h | h <;> simp [h]
    by_cases h2 : (h.he x).face = some f2
    · left; rcases t2.own x h2 with h | h | h <;> simp [h]
    · exact Or.inr ⟨h1, h2⟩
  have opp' : ∀ x, (h'.he x).opp = (h.he x).opp := by
    intro x
    rcases six x with (rfl | rfl | rfl | rfl | rfl | rfl) | ⟨h1, h2⟩
    exacts [by rw [s11, ho1], by rw [s21], by rw [s31], by rw [s12, ho2], by rw [s22], by rw [s32], by rw [out x h1 h2]]
  have vert' : ∀ x, x ≠ e11 → x ≠ e12 → (h'.he x).vertex = (h.he x).vertex := by
    intro x hx1 hx2
    rcases six x with (rfl | rfl | rfl | rfl | rfl | rfl) | ⟨h1, h2⟩
    exacts [absurd rfl hx1, by rw [s21, hv21], by rw [s31, hv31], absurd rfl hx2, by rw [s22, hv22], by rw [s32, hv32], by rw [out x h1 h2]]
  have T1 : Tri h' f1 e11 e32 e21 := by
    refine ⟨d3, d6.symm, t1.ab.symm, by rw [s11], by rw [s32], by rw [s21], by rw [s11], by rw [s32], by rw [s21], by rw [s11], by rw [s32], by rw [s21], ?_⟩
    intro x hx
    rcases six x with (rfl | rfl | rfl | rfl | rfl | rfl) | ⟨h1, h2⟩
    · simp
    · simp
    · rw [s31] at hx; simp [hne.symm] at hx
    · rw [s12] at hx; simp [hne.symm] at hx
    · rw [s22] at hx; simp [hne.symm] at hx
    · simp
    · rw [out x h1 h2] at hx; exact absurd hx h1
  have T2 : Tri h' f2 e12 e31 e22 := by
    refine ⟨d7.symm, d8, t2.ab.symm, by rw [s12], by rw [s31], by rw [s22], by rw [s12], by rw [s31], by rw [s22], by rw [s12], by rw [s31], by rw [s22], ?_⟩
    intro x hx
    rcases six x with (rfl | rfl | rfl | rfl | rfl | rfl) | ⟨h1, h2⟩
    · rw [s11] at hx; simp [hne] at hx
    · rw [s21] at hx; simp [hne] at hx
    · simp
    · simp
    · simp
    · rw [s32] at hx; simp [hne] at hx
    · rw [out x h1 h2] at hx; exact absurd hx h2
  have live : ∀ x, Spec.Live h' F x ↔ Spec.Live h F x := by
    intro x
    rcases six x with hx | ⟨h1, h2⟩
    · constructor
      · intro _
        rcases hx with rfl | rfl | rfl | rfl | rfl | rfl
        exacts [⟨f1, hf1, t1.fa⟩, ⟨f1, hf1, t1.fb⟩, ⟨f1, hf1, t1.fc⟩, ⟨f2, hf2, t2.fa⟩, ⟨f2, hf2, t2.fb⟩, ⟨f2, hf2, t2.fc⟩]
      · intro _
        rcases hx with rfl | rfl | rfl | rfl | rfl | rfl
        exacts [⟨f1, hf1, T1.fa⟩, ⟨f1, hf1, T1.fc⟩, ⟨f2, hf2, T2.fb⟩, ⟨f2, hf2, T2.fa⟩, ⟨f2, hf2, T2.fc⟩, ⟨f1, hf1, T1.fb⟩]
    · unfold Spec.Live
      rw [out x h1 h2]
  have triOut : ∀ f a b c, f ≠ f1 → f ≠ f2 → Tri h f a b c → Tri h' f a b c := by
    intro f a b c hn1 hn2 t
    have o : ∀ x, (h.he x).face = some f → h'.he x = h.he x := fun x hx =>
      out x (by rw [hx]; simpa using hn1) (by rw [hx]; simpa using hn2)
    refine ⟨t.ab, t.bc, t.ca, by rw [o a t.fa, t.na], by rw [o b t.fb, t.nb], by rw [o c t.fc, t.nc], by rw [o a t.fa, t.pa], by rw [o b t.fb, t.pb],
      by rw [o c t.fc, t.pc], by rw [o a t.fa, t.fa], by rw [o b t.fb, t.fb], by rw [o c t.fc, t.fc], ?_⟩
    intro x hx
    rcases six x with (rfl | rfl | rfl | rfl | rfl | rfl) | ⟨h1, h2⟩
    · rw [s11] at hx; simp [hn1.symm] at hx
    · rw [s21] at hx; simp [hn1.symm] at hx
    · rw [s31] at hx; simp [hn2.symm] at hx
    · rw [s12] at hx; simp [hn2.symm] at hx
    · rw [s22] at hx; simp [hn2.symm] at hx
    · rw [s32] at hx; simp [hn1.symm] at hx
    · rw [out x h1 h2] at hx; exact t.own x hx
  have start' : ∀ x, Spec.Live h F x → x ≠ e11 → x ≠ e12 → Spec.start h' x = Spec.start h x := by
    intro x hl hx1 hx2
    rcases six x with (rfl | rfl | rfl | rfl | rfl | rfl) | ⟨h1, h2⟩
    · exact absurd rfl hx1
    · rw [T1.rotate.rotate.start, t1.rotate.start, s32, hv11]
    · rw [T2.rotate.start, t1.rotate.rotate.start, s12, hv21]
    · exact absurd rfl hx2
    · rw [T2.rotate.rotate.start, t2.rotate.start, s31, hv12]
    · rw [T1.rotate.start, t2.rotate.rotate.start, s11, hv22]
    · obtain ⟨f, hf, hxf⟩ := hl
      obtain ⟨b, c, t⟩ := H.triAt hf hxf
      have hn1 : f ≠ f1 := by rintro rfl; exact h1 hxf
      have hn2 : f ≠ f2 := by rintro rfl; exact h2 hxf
      rw [(triOut f x b c hn1 hn2 t).start, t.start, out c (by rw [t.fc]; simpa using hn1) (by rw [t.fc]; simpa using hn2)]
  refine ⟨h', hok, Spec.Valid.of_tri H.nodup (fun f hf => by rw [hnF]; exact H.faces f hf) ?_ ?_ ?_ ?_, ?_, hco, hnE, hnV, hnF, ?_, fun _ =>
    ⟨e11, e21, e31, e12, e22, e32, t1, t2, ho1, T1, T2, by rw [s11, hv22], by rw [s12, hv21], vert', opp', out, ?_⟩⟩
  · intro x f hx
    rw [hnE, hnF]
    rcases six x with (rfl | rfl | rfl | rfl | rfl | rfl) | ⟨h1, h2⟩
    · rw [s11] at hx; cases hx; exact H.edges _ _ t1.fa
    · rw [s21] at hx; cases hx; exact H.edges _ _ t1.fb
    · rw [s31] at hx; cases hx; exact ⟨(H.edges _ _ t1.fc).1, H.faces _ hf2⟩
    · rw [s12] at hx; cases hx; exact H.edges _ _ t2.fa
    · rw [s22] at hx; cases hx; exact H.edges _ _ t2.fb
    · rw [s32] at hx; cases hx; exact ⟨(H.edges _ _ t2.fc).1, H.faces _ hf1⟩
    · rw [out x h1 h2] at hx; exact H.edges x f hx
  · intro f hf
    by_cases hn1 : f = f1
    · subst hn1; exact ⟨_, _, _, T1, by rw [hfe]; simp [hne]⟩
    by_cases hn2 : f = f2
    · subst hn2; exact ⟨_, _, _, T2, by rw [hfe]; simp⟩
    obtain ⟨a, b, c, t, h1⟩ := H.tri hf
    exact ⟨a, b, c, triOut f a b c hn1 hn2 t, by rw [hfe]; simp [hn1, hn2, h1]⟩
  · intro x hx
    rw [live] at hx
    rw [hnV]
    by_cases hx1 : x = e11
    · obtain ⟨v, h1, h2⟩ := H.vertex e22 ⟨f2, hf2, t2.fb⟩
      exact ⟨v, by rw [hx1, s11, ← hv22, h1], h2⟩
    by_cases hx2 : x = e12
    · obtain ⟨v, h1, h2⟩ := H.vertex e21 ⟨f1, hf1, t1.fb⟩
      exact ⟨v, by rw [hx2, s12, ← hv21, h1], h2⟩
    rw [vert' x hx1 hx2]
    exact H.vertex x hx
  · intro x o hx ho
    rw [opp'] at ho
    rw [live] at hx ⊢
    rw [opp']
    obtain ⟨h1, h2, h3⟩ := H.opp_start hx ho
    refine ⟨h1, h2, ?_⟩
    by_cases hx1 : x = e11
    · subst hx1
      rw [ho1] at ho; cases ho
      rw [T1.start, s12, s21]
    by_cases hx2 : x = e12
    · subst hx2
      rw [ho2] at ho; cases ho
      rw [T2.start, s11, s22]
    rw [start' x hx hx1 hx2, vert' o, h3]
    · rintro rfl; rw [ho1] at h2; cases h2; exact hx2 rfl
    · rintro rfl; rw [ho2] at h2; cases h2; exact hx1 rfl
  · intro HL x v hx hv
    have key : ∃ y, Spec.Live h F y ∧ (h.he y).vertex = some v := by
      rw [live] at hx
      by_cases hx1 : x = e11
      · subst hx1; rw [s11] at hv; cases hv
        exact ⟨e22, ⟨f2, hf2, t2.fb⟩, hv22⟩
      by_cases hx2 : x = e12
      · subst hx2; rw [s12] at hv; cases hv
        exact ⟨e21, ⟨f1, hf1, t1.fb⟩, hv21⟩
      exact ⟨x, hx, by rw [← vert' x hx1 hx2, hv]⟩
    obtain ⟨y, hy, hyv⟩ := key
    obtain ⟨z, hz, hzl, hzv⟩ := HL y v hy hyv
    rcases hve v with h1 | ⟨rfl, h1⟩ | ⟨rfl, h1⟩ | ⟨rfl, h1⟩ | ⟨rfl, h1⟩
    · refine ⟨z, by rw [h1, hz], (live z).mpr hzl, ?_⟩
      rw [vert' z, hzv]
      · rintro rfl
        rw [hv11] at hzv; cases hzv
        exact n1 (h1.trans hz)
      · rintro rfl
        rw [hv12] at hzv; cases hzv
        exact n3 (h1.trans hz)
    · exact ⟨_, h1, ⟨f1, hf1, T1.fa⟩, by rw [s11]⟩
    · exact ⟨_, h1, ⟨f2, hf2, T2.fa⟩, by rw [s12]⟩
    · exact ⟨_, h1, ⟨f1, hf1, T1.fb⟩, by rw [s32]⟩
    · exact ⟨_, h1, ⟨f2, hf2, T2.fb⟩, by rw [s31]⟩
  · intro hno
    exact absurd t2.fa (hno e11 e12 t1.fa ho1)
  · intro g h1 h2
    rw [hfe]; simp [h1, h2]

/-- Two triangles `0 1 2` and `2 1 3` with a common edge: half-edges 0, 1, 2 and 3, 4, 5. -/
def Sample.twoTris : Mesh ℕ where
  he := fun e => match e with
    | 0 => ⟨some 1, some 0, some 1, some 2, none⟩
    | 1 => ⟨some 2, some 0, some 2, some 0, some 3⟩
    | 2 => ⟨some 0, some 0, some 0, some 1, none⟩
    | 3 => ⟨some 1, some 1, some 4, some 5, some 1⟩
    | 4 => ⟨some 3, some 1, some 5, some 3, none⟩
    | 5 => ⟨some 2, some 1, some 3, some 4, none⟩
    | _ => {}
  co := id
  ve := fun v => match v with
    | 0 => some 2
    | 1 => some 3
    | 2 => some 1
    | 3 => some 4
    | _ => none
  fe := fun f => match f with
    | 0 => some 0
    | 1 => some 3
    | _ => none
  nE := 6
  nV := 4
  nF := 2

theorem Sample.twoTris_valid : Spec.Valid Sample.twoTris [0, 1] := by
  have own : ∀ e f, (Sample.twoTris.he e).face = some f → e < 6 := by
    intro e f he
    by_contra hc
    obtain ⟨k, rfl⟩ : ∃ k, e = k + 6 := ⟨e - 6, by omega⟩
    simp [Sample.twoTris] at he
  refine Spec.Valid.of_tri (by decide) (by decide) ?_ ?_ ?_ ?_
  · intro e f he
    have h6 := own e f he
    refine ⟨h6, ?_⟩
    interval_cases e <;> simp [Sample.twoTris] at he ⊢ <;> omega
  · intro f hf
    simp at hf
    rcases hf with rfl | rfl
    · refine ⟨0, 1, 2, ⟨by decide, by decide, by decide, rfl, rfl, rfl, rfl, rfl, rfl, rfl, rfl, rfl, ?_⟩, rfl⟩
      intro e he
      have h6 := own e _ he
      interval_cases e <;> simp [Sample.twoTris] at he ⊢
    · refine ⟨3, 4, 5, ⟨by decide, by decide, by decide, rfl, rfl, rfl, rfl, rfl, rfl, rfl, rfl, rfl, ?_⟩, rfl⟩
      intro e he
      have h6 := own e _ he
      interval_cases e <;> simp [Sample.twoTris] at he ⊢
  · rintro e ⟨f, -, he⟩
    have h6 := own e f he
    interval_cases e <;> simp [Sample.twoTris]
  · rintro e o ⟨f, -, he⟩ ho
    have h6 := own e f he
    interval_cases e <;> simp [Sample.twoTris] at ho
    · subst ho; exact ⟨⟨1, by decide, rfl⟩, rfl, rfl⟩
    · subst ho; exact ⟨⟨0, by decide, rfl⟩, rfl, rfl⟩

example : ∃ h', Sample.twoTris.flip 0 1 = .ok h' ∧ Spec.Valid h' [0, 1] ∧ h'.getFaceEdges 0 = .ok [1, 5, 2] ∧ (h'.he 1).vertex = some 3 := by
  obtain ⟨h', h1, h2, -⟩ := C38_flip Sample.twoTris_valid (f1 := 0) (f2 := 1) (by decide) (by decide) (by decide)
  refine ⟨h', h1, h2, ?_⟩
  have hd : (Sample.twoTris.flip 0 1).toOption.bind (fun m => (m.getFaceEdges 0).toOption) = some [1, 5, 2] ∧
      (Sample.twoTris.flip 0 1).toOption.bind (fun m => (m.he 1).vertex) = some 3 := by
    constructor <;> decide +kernel
  rw [h1] at hd
  simp only [Except.toOption, Option.bind_some] at hd
  refine ⟨?_, hd.2⟩
  cases hq : h'.getFaceEdges 0 with
  | error e => rw [hq] at hd; simp at hd
  | ok l => rw [hq] at hd; simp at hd; rw [hd.1]

end Gbs
