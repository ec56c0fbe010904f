import Verif.Lemmas.Tfi
import Verif.Props.Ranges

/-! # Meshes by transfinite interpolation (C92) -/

namespace Gbs

set_option linter.unusedSectionVars false

variable {K : Type} [Field K] [LinearOrder K] [IsStrictOrderedRing K]
variable {V : Type} [AddCommGroup V] [Module K V]

/-- The index of the node on line `k` of the lattice, for segments of `nui` nodes, ends included. -/
def Spec.nodeIndex (nui : List ℕ) (k : ℕ) : ℕ := ((nui.take k).map (· - 1)).sum

/-- An element of an array of three indices. -/
def Spec.at3 {α : Type} (X : List (List (List α))) (i j n : ℕ) : Option α := X[i]?.bind fun a => a[j]?.bind fun b => b[n]?

/-- An element of an array of four indices. -/
def Spec.at4 {α : Type} (X : List (List (List (List α)))) (i j n m : ℕ) : Option α :=
  X[i]?.bind fun a => a[j]?.bind fun b => b[n]?.bind fun c => c[m]?

/-! ## The blend functions -/

theorem blendData_spec {L nc i n : ℕ} (hi : i < L) (hn : n < nc) :
    ∃ d : List (List K), blendData L nc i n = .ok d ∧ d.length = L ∧ (∀ q ∈ d, q.length = nc) ∧
      ∀ k, k < L → ∃ q, d[k]? = some q ∧ ∀ e, e < nc → q[e]? = some (if i = k ∧ n = e then 1 else 0) := by
  unfold blendData
  refine ⟨(List.replicate L (List.replicate nc 0)).set i ((List.replicate nc 0).set n 1), ?_, by simp, ?_, ?_⟩
  · dsimp only
    rw [rd_ok (by simpa using hi), R_bind_ok, wr_ok (by simpa using hn), R_bind_ok, wr_ok (by simpa using hi)]
    simp
  · intro q hq
    rcases List.mem_or_eq_of_mem_set hq with h | h
    · rw [(List.mem_replicate.mp h).2]; simp
    · rw [h]; simp
  · intro k hk
    rw [getElem?_set_of_lt (by simpa using hi)]
    rcases eq_or_ne k i with rfl | hki
    · rw [if_pos rfl]
      refine ⟨_, rfl, fun e he => ?_⟩
      rw [getElem?_set_of_lt (by simpa using hn)]
      rcases eq_or_ne e n with rfl | hen
      · simp
      · rw [if_neg hen, List.getElem?_replicate, if_pos he, if_neg (by tauto)]
    · rw [if_neg hki, List.getElem?_replicate, if_pos hk]
      refine ⟨_, rfl, fun e he => ?_⟩
      rw [List.getElem?_replicate, if_pos he, if_neg (by tauto)]

/-- C92: the blend functions exist; the function of line `i` and order `n` has at the parameter of line `k` the derivative of order `d` equal to 1
when `i = k` and `n = d`, and to 0 otherwise, for all the orders that are imposed. -/
theorem C92_blend {eps meps : K} (heps : 0 < eps) (hm : 0 ≤ meps) (growth junk : K) {P nc : ℕ} (hPn : P ≤ nc)
    (hd : 2 * nc - 1 ≤ stackMaxDegree) {ksi : List K} (hn : 2 ≤ ksi.length) (hk : ksi.Pairwise (· < ·))
    {sparse : ℕ → List (ℕ × ℕ × K) → List K → R (List K)} (hS : Spec.SolvesRegular sparse) :
    ∃ F, blendFunctions eps meps growth junk sparse P nc ksi = .ok F ∧ F.length = ksi.length ∧
      ∀ i n, i < ksi.length → n < P → ∃ r f, F[i]? = some r ∧ r[n]? = some f ∧ f.Good ∧ f.deg = 2 * nc - 1 ∧
        some f.b0 = ksi.head? ∧ some f.b1 = ksi.getLast? ∧
        ∀ (k : ℕ) (t : K) (d : ℕ), ksi[k]? = some t → d < nc → ∀ junk', f.value eps junk' t d = .ok (if i = k ∧ n = d then 1 else 0) := by
  have key : ∀ i n, i < ksi.length → n < P → ∃ f, (do
      let d ← blendData ksi.length nc i n
      interpolateNc eps meps growth junk 0 sparse nc d ksi) = .ok f ∧ f.Good ∧ f.deg = 2 * nc - 1 ∧
        some f.b0 = ksi.head? ∧ some f.b1 = ksi.getLast? ∧
        ∀ (k : ℕ) (t : K) (d : ℕ), ksi[k]? = some t → d < nc → ∀ junk', f.value eps junk' t d = .ok (if i = k ∧ n = d then 1 else 0) := by
    intro i n hi hn'
    obtain ⟨d, ed, d1, d2, d3⟩ := blendData_spec (K := K) hi (show n < nc by omega)
    obtain ⟨f, ef, f1, f2, -, f4, f5, f6⟩ := C36_interpolate_derivatives heps hm growth junk (0 : K) (by omega) hd d1 hn hk d2 hS
    refine ⟨f, by rw [ed, R_bind_ok, ef], f1, f2, f4, f5, ?_⟩
    intro k t e hkt he junk'
    obtain ⟨q, q1, q2⟩ := d3 k (kf_of_some hkt).1
    exact f6 k q t e _ q1 hkt (q2 e he) junk'
  have inner : ∀ i, i < ksi.length → ∃ r, ((List.range P).mapM fun n => do
      let d ← blendData ksi.length nc i n
      interpolateNc eps meps growth junk 0 sparse nc d ksi) = .ok r :=
    fun i hi => mapM_range_exists fun n hn' => by obtain ⟨f, hf, -⟩ := key i n hi hn'; exact ⟨f, hf⟩
  obtain ⟨F, eF⟩ := mapM_range_exists inner
  obtain ⟨F1, F2⟩ := mapM_range_inv eF
  refine ⟨F, eF, F1, ?_⟩
  intro i n hi hn'
  obtain ⟨r, er, hr⟩ := F2 i hi
  obtain ⟨-, r2⟩ := mapM_range_inv er
  obtain ⟨f, ef, hf⟩ := r2 n hn'
  obtain ⟨g, eg, hg⟩ := key i n hi hn'
  rw [ef] at eg
  cases eg
  exact ⟨r, f, hr, hf, hg⟩

/-! ## The sums -/

theorem forLt_addI {W : Type} [AddCommGroup W] {body : ℕ → W → R W} {n : ℕ} {g : ℕ → W} (h : ∀ i, i < n → ∀ s, body i s = .ok (s + g i))
    (s : W) : forLt 0 n body s = .ok (s + ∑ i ∈ Finset.range n, g i) := by
  obtain ⟨s', e, hs'⟩ := forLt_inv (fun i x => x = s + ∑ j ∈ Finset.range i, g j) (body := body) (a := 0) (b := n) (s := s) (Nat.zero_le n)
    (by simp) (fun i x _ hi hx => ⟨_, h i hi x, by rw [hx, Finset.sum_range_succ, add_assoc]⟩)
  rw [e, hs']

theorem lineSum_eq {eps junk : K} {F : List (List (Curve K K))} {L P : ℕ} {t : K} {X : List (List V)} {A : ℕ → ℕ → K} {x : ℕ → ℕ → V}
    (hF : ∀ i n, i < L → n < P → ∃ r f, F[i]? = some r ∧ r[n]? = some f ∧ f.value eps junk t = .ok (A i n))
    (hX : ∀ i n, i < L → n < P → ∃ r, X[i]? = some r ∧ r[n]? = some (x i n)) :
    lineSum eps junk F L P t X = .ok (∑ i ∈ Finset.range L, ∑ n ∈ Finset.range P, A i n • x i n) := by
  unfold lineSum
  rw [forLt_addI (g := fun i => ∑ n ∈ Finset.range P, A i n • x i n), zero_add]
  intro i hi s
  rw [forLt_addI (g := fun n => A i n • x i n)]
  intro n hn s
  obtain ⟨r, f, h1, h2, h3⟩ := hF i n hi hn
  obtain ⟨r', h4, h5⟩ := hX i n hi hn
  simp only [rd_eq_ok.mpr h1, rd_eq_ok.mpr h2, h3, rd_eq_ok.mpr h4, rd_eq_ok.mpr h5, R_bind_ok, R_pure]

theorem latticeSum_eq {eps junk : K} {F G : List (List (Curve K K))} {L M P Q : ℕ} {t r : K} {X : List (List (List (List V)))}
    {A B : ℕ → ℕ → K} {x : ℕ → ℕ → ℕ → ℕ → V}
    (hF : ∀ i n, i < L → n < P → ∃ r f, F[i]? = some r ∧ r[n]? = some f ∧ f.value eps junk t = .ok (A i n))
    (hG : ∀ j m, j < M → m < Q → ∃ a f, G[j]? = some a ∧ a[m]? = some f ∧ f.value eps junk r = .ok (B j m))
    (hX : ∀ i j n m, i < L → j < M → n < P → m < Q → Spec.at4 X i j n m = some (x i j n m)) :
    latticeSum eps junk F G L M P Q t r X = .ok (∑ i ∈ Finset.range L, ∑ j ∈ Finset.range M, ∑ n ∈ Finset.range P, ∑ m ∈ Finset.range Q,
      (A i n * B j m) • x i j n m) := by
  unfold latticeSum
  rw [forLt_addI (g := fun i => ∑ j ∈ Finset.range M, ∑ n ∈ Finset.range P, ∑ m ∈ Finset.range Q, (A i n * B j m) • x i j n m), zero_add]
  intro i hi s
  rw [forLt_addI (g := fun j => ∑ n ∈ Finset.range P, ∑ m ∈ Finset.range Q, (A i n * B j m) • x i j n m)]
  intro j hj s
  rw [forLt_addI (g := fun n => ∑ m ∈ Finset.range Q, (A i n * B j m) • x i j n m)]
  intro n hn s
  rw [forLt_addI (g := fun m => (A i n * B j m) • x i j n m)]
  intro m hm s
  obtain ⟨a, f, h1, h2, h3⟩ := hF i n hi hn
  obtain ⟨b, g, h4, h5, h6⟩ := hG j m hj hm
  have h7 := hX i j n m hi hj hn hm
  unfold Spec.at4 at h7
  obtain ⟨X1, e1, h7⟩ := Option.bind_eq_some_iff.mp h7
  obtain ⟨X2, e2, h7⟩ := Option.bind_eq_some_iff.mp h7
  obtain ⟨X3, e3, e4⟩ := Option.bind_eq_some_iff.mp h7
  simp only [rd_eq_ok.mpr h1, rd_eq_ok.mpr h2, h3, rd_eq_ok.mpr h4, rd_eq_ok.mpr h5, h6, rd_eq_ok.mpr e1, rd_eq_ok.mpr e2, rd_eq_ok.mpr e3,
    rd_eq_ok.mpr e4, R_bind_ok, R_pure]

/-! ## The mesh of a lattice -/

theorem grid_inj {nj i j i' j' : ℕ} (hj : j < nj) (hj' : j' < nj) (h : j + nj * i = j' + nj * i') : i = i' ∧ j = j' := by
  have h1 : (j + nj * i) / nj = i := by rw [Nat.add_mul_div_left _ _ (by omega), Nat.div_eq_of_lt hj, Nat.zero_add]
  have h2 : (j' + nj * i') / nj = i' := by rw [Nat.add_mul_div_left _ _ (by omega), Nat.div_eq_of_lt hj', Nat.zero_add]
  have h3 : i = i' := by rw [← h1, ← h2, h]
  subst h3
  exact ⟨rfl, by omega⟩

theorem foldlM_range {S : Type} {body : S → ℤ → R S} : ∀ (n a : ℕ) (s : S),
    ((List.range' a n).map fun i : ℕ => (0 : ℤ) + (i : ℤ)).foldlM body s = forN (fun i s => body s (i : ℤ)) n a s := by
  intro n
  induction n with
  | zero => intro a s; rfl
  | succ n ih =>
    intro a s
    rw [List.range'_succ, List.map_cons, List.foldlM_cons, forN]
    simp only [zero_add] at ih ⊢
    congr 1
    funext s'
    exact ih (a + 1) s'

theorem meshLoop {ni nj : ℕ} {f : ℕ → ℕ → R V} {node : ℕ → ℕ → V} (hi2 : 2 ≤ ni) (h : ∀ i j, i < ni → j < nj → f i j = .ok (node i j)) :
    ∃ pts, (do
      let m ← usub ni 1
      let is ← makeRangeInt 0 m
      is.foldlM (fun pts (i : ℤ) => forLt 0 nj (fun j' pts => do
        let x ← f i.toNat j'
        wr pts (j' + nj * i.toNat) x) pts) (List.replicate (ni * nj) (0 : V))) = .ok pts ∧ pts.length = ni * nj ∧
      ∀ i j, i < ni → j < nj → pts[j + nj * i]? = some (node i j) := by
  rw [usub_ok (by omega), R_bind_ok]
  unfold makeRangeInt
  rw [if_neg (by omega), R_bind_ok, show ((ni - 1 : ℕ) : ℤ) - 0 + 1 = ((ni : ℕ) : ℤ) by omega, Int.toNat_natCast, List.range_eq_range',
    foldlM_range]
  have hpos : ∀ i j, i < ni → j < nj → j + nj * i < ni * nj := by
    intro i j hi hj
    calc j + nj * i < nj + nj * i := by omega
      _ = nj * (i + 1) := by ring
      _ ≤ nj * ni := Nat.mul_le_mul_left _ hi
      _ = ni * nj := Nat.mul_comm _ _
  obtain ⟨s, e, hs⟩ := forN_inv (fun i (s : List V) => s.length = ni * nj ∧ ∀ i' j', i' < i → j' < nj → s[j' + nj * i']? = some (node i' j'))
    (body := fun i s => forLt 0 nj (fun j' pts => do
        let x ← f ((i : ℤ)).toNat j'
        wr pts (j' + nj * ((i : ℤ)).toNat) x) s) ni 0 (List.replicate (ni * nj) (0 : V)) ⟨by simp, fun i' j' hi' => by omega⟩ (by
      intro i s _ hi hI
      rw [Nat.zero_add] at hi
      simp only [Int.toNat_natCast]
      obtain ⟨s', e', h1, h2, h3⟩ := forLt_inv (fun j (s : List V) => s.length = ni * nj ∧
          (∀ i' j', i' < i → j' < nj → s[j' + nj * i']? = some (node i' j')) ∧ ∀ j', j' < j → s[j' + nj * i]? = some (node i j'))
        (body := fun j' pts => do
          let x ← f i j'
          wr pts (j' + nj * i) x) (a := 0) (b := nj) (s := s) (Nat.zero_le _) ⟨hI.1, hI.2, fun j' hj' => by omega⟩ (by
          intro j x _ hj hx
          refine ⟨x.set (j + nj * i) (node i j), ?_, by simp [hx.1], ?_, ?_⟩
          · rw [h i j hi hj, R_bind_ok, wr_ok (by rw [hx.1]; exact hpos i j hi hj)]
          · intro i' j' hi' hj'
            rw [getElem?_set_of_lt (by rw [hx.1]; exact hpos i j hi hj), if_neg, hx.2.1 i' j' hi' hj']
            intro hc
            have := (grid_inj hj' hj hc).1
            omega
          · intro j' hj'
            rw [getElem?_set_of_lt (by rw [hx.1]; exact hpos i j hi hj)]
            rcases eq_or_ne j' j with rfl | hne
            · rw [if_pos rfl]
            · rw [if_neg (by omega), hx.2.2 j' (by omega)])
      refine ⟨s', e', h1, ?_⟩
      intro i' j' hi' hj'
      rcases Nat.lt_or_ge i' i with hlt | hge
      · exact h2 i' j' hlt hj'
      · obtain rfl : i' = i := by omega
        exact h3 j' hj')
  rw [Nat.zero_add] at hs
  exact ⟨s, e, hs.1, hs.2⟩

theorem sum_delta {L P k : ℕ} (hk : k < L) (hP : 1 ≤ P) (x : ℕ → ℕ → V) :
    ∑ i ∈ Finset.range L, ∑ n ∈ Finset.range P, (if i = k ∧ n = 0 then (1 : K) else 0) • x i n = x k 0 := by
  rw [Finset.sum_eq_single k, Finset.sum_eq_single 0]
  · simp
  · intro n _ hn; rw [if_neg (by tauto), zero_smul]
  · intro h; exact absurd (Finset.mem_range.mpr hP) h
  · intro i _ hi
    apply Finset.sum_eq_zero
    intro n _
    rw [if_neg (by tauto), zero_smul]
  · intro h; exact absurd (Finset.mem_range.mpr hk) h

/-- C92: the mesh of a lattice whose arrays have the expected sizes is built. The line of nodes whose parameter `ksi` is that of line `k` of the
lattice has the nodes of curve `k`, when the derivatives at the crossings of that line are those of the curves of the other family; and
conversely. -/
theorem C92_mesh {eps meps : K} (heps : 0 < eps) (hm : 0 ≤ meps) (growth junk : K) {P Q : ℕ} (hP : 1 ≤ P) (hQ : 1 ≤ Q) (slope : Bool)
    (hdP : 2 * (P + slope.toNat) - 1 ≤ stackMaxDegree) (hdQ : 2 * (Q + slope.toNat) - 1 ≤ stackMaxDegree) {ksi eth : List K}
    (hnk : 2 ≤ ksi.length) (hne : 2 ≤ eth.length) (hk : ksi.Pairwise (· < ·)) (he : eth.Pairwise (· < ·))
    {sparse : ℕ → List (ℕ × ℕ × K) → List K → R (List K)} (hS : Spec.SolvesRegular sparse) {lat : Lattice K V}
    (hni : 2 ≤ lat.Xeth.length) {x y : ℕ → ℕ → ℕ → V} {xy : ℕ → ℕ → ℕ → ℕ → V}
    (hx : ∀ j' i n, j' < lat.Xksi.length → i < ksi.length → n < P → Spec.at3 lat.Xksi j' i n = some (x j' i n))
    (hy : ∀ i' j m, i' < lat.Xeth.length → j < eth.length → m < Q → Spec.at3 lat.Xeth i' j m = some (y i' j m))
    (hxy : ∀ i j n m, i < ksi.length → j < eth.length → n < P → m < Q → Spec.at4 lat.Xke i j n m = some (xy i j n m))
    (hf : ∀ i', i' < lat.Xeth.length → ∃ t, kf ksi 0 ≤ t ∧ t ≤ kf ksi (ksi.length - 1) ∧ lat.ksi.value eps junk (i' : K) = .ok t)
    (hg : ∀ j', j' < lat.Xksi.length → ∃ t, kf eth 0 ≤ t ∧ t ≤ kf eth (eth.length - 1) ∧ lat.eth.value eps junk (j' : K) = .ok t) :
    ∃ pts, tfiMesh eps meps growth junk sparse P Q slope lat ksi eth = .ok pts ∧ pts.length = lat.Xeth.length * lat.Xksi.length ∧
      (∀ (i' k : ℕ), i' < lat.Xeth.length → k < ksi.length → lat.ksi.value eps junk (i' : K) = .ok (kf ksi k) →
        (∀ j m, j < eth.length → m < Q → y i' j m = xy k j 0 m) →
        ∀ j', j' < lat.Xksi.length → pts[j' + lat.Xksi.length * i']? = some (x j' k 0)) ∧
      ∀ (j' l : ℕ), j' < lat.Xksi.length → l < eth.length → lat.eth.value eps junk (j' : K) = .ok (kf eth l) →
        (∀ i n, i < ksi.length → n < P → x j' i n = xy i l n 0) →
        ∀ i', i' < lat.Xeth.length → pts[j' + lat.Xksi.length * i']? = some (y i' l 0) := by
  obtain ⟨F, eF, -, hF⟩ := C92_blend heps hm growth junk (Nat.le_add_right P slope.toNat) hdP hnk hk hS
  obtain ⟨G, eG, -, hG⟩ := C92_blend heps hm growth junk (Nat.le_add_right Q slope.toNat) hdQ hne he hS
  -- the blend functions have values
  have blendVal : ∀ {Z : List K} {P nc : ℕ} {F : List (List (Curve K K))}, 2 ≤ Z.length → 2 * nc - 1 ≤ stackMaxDegree →
      (∀ i n, i < Z.length → n < P → ∃ r f, F[i]? = some r ∧ r[n]? = some f ∧ f.Good ∧ f.deg = 2 * nc - 1 ∧
        some f.b0 = Z.head? ∧ some f.b1 = Z.getLast? ∧
        ∀ (k : ℕ) (t : K) (d : ℕ), Z[k]? = some t → d < nc → ∀ junk', f.value eps junk' t d = .ok (if i = k ∧ n = d then 1 else 0)) →
      ∀ t, kf Z 0 ≤ t → t ≤ kf Z (Z.length - 1) → ∃ A : ℕ → ℕ → K, ∀ i n, i < Z.length → n < P →
        ∃ r f, F[i]? = some r ∧ r[n]? = some f ∧ f.value eps junk t = .ok (A i n) := by
    intro Z P nc F hZ hnc hF t h1 h2
    have : ∀ i n, ∃ a, i < Z.length → n < P → ∃ r f, F[i]? = some r ∧ r[n]? = some f ∧ f.value eps junk t = .ok a := by
      intro i n
      by_cases hin : i < Z.length ∧ n < P
      · obtain ⟨r, f, e1, e2, hg, hd, hb0, hb1, -⟩ := hF i n hin.1 hin.2
        rw [List.head?_eq_getElem?, kf_getElem? (by omega), Option.some.injEq] at hb0
        rw [List.getLast?_eq_getElem?, kf_getElem? (by omega), Option.some.injEq] at hb1
        exact ⟨_, fun _ _ => ⟨r, f, e1, e2, C04_value_eq_sum heps hg (Or.inl (by rw [hd]; exact hnc)) (by rw [hb0]; exact h1)
          (by rw [hb1]; exact h2) junk⟩⟩
      · exact ⟨0, fun h1 h2 => absurd ⟨h1, h2⟩ hin⟩
    choose A hA using this
    exact ⟨A, hA⟩
  have hT : ∀ i', ∃ t, i' < lat.Xeth.length → kf ksi 0 ≤ t ∧ t ≤ kf ksi (ksi.length - 1) ∧ lat.ksi.value eps junk (i' : K) = .ok t := by
    intro i'
    by_cases h : i' < lat.Xeth.length
    · obtain ⟨t, ht⟩ := hf i' h; exact ⟨t, fun _ => ht⟩
    · exact ⟨0, fun h' => absurd h' h⟩
  have hR : ∀ j', ∃ t, j' < lat.Xksi.length → kf eth 0 ≤ t ∧ t ≤ kf eth (eth.length - 1) ∧ lat.eth.value eps junk (j' : K) = .ok t := by
    intro j'
    by_cases h : j' < lat.Xksi.length
    · obtain ⟨t, ht⟩ := hg j' h; exact ⟨t, fun _ => ht⟩
    · exact ⟨0, fun h' => absurd h' h⟩
  choose T hT using hT
  choose S hR using hR
  have hA : ∀ i', ∃ A : ℕ → ℕ → K, i' < lat.Xeth.length → ∀ i n, i < ksi.length → n < P →
      ∃ r f, F[i]? = some r ∧ r[n]? = some f ∧ f.value eps junk (T i') = .ok (A i n) := by
    intro i'
    by_cases h : i' < lat.Xeth.length
    · obtain ⟨A, hA⟩ := blendVal hnk hdP hF (T i') (hT i' h).1 (hT i' h).2.1; exact ⟨A, fun _ => hA⟩
    · exact ⟨fun _ _ => 0, fun h' => absurd h' h⟩
  have hB : ∀ j', ∃ A : ℕ → ℕ → K, j' < lat.Xksi.length → ∀ i n, i < eth.length → n < Q →
      ∃ r f, G[i]? = some r ∧ r[n]? = some f ∧ f.value eps junk (S j') = .ok (A i n) := by
    intro j'
    by_cases h : j' < lat.Xksi.length
    · obtain ⟨A, hA⟩ := blendVal hne hdQ hG (S j') (hR j' h).1 (hR j' h).2.1; exact ⟨A, fun _ => hA⟩
    · exact ⟨fun _ _ => 0, fun h' => absurd h' h⟩
  choose A hA using hA
  choose B hB using hB
  have hnode : ∀ i' j', i' < lat.Xeth.length → j' < lat.Xksi.length →
      tfiNode eps junk P Q F G lat ksi.length eth.length i' j' =
        .ok (∑ i ∈ Finset.range ksi.length, ∑ n ∈ Finset.range P, A i' i n • x j' i n +
          ∑ j ∈ Finset.range eth.length, ∑ m ∈ Finset.range Q, B j' j m • y i' j m -
          ∑ i ∈ Finset.range ksi.length, ∑ j ∈ Finset.range eth.length, ∑ n ∈ Finset.range P, ∑ m ∈ Finset.range Q,
            (A i' i n * B j' j m) • xy i j n m) := by
    intro i' j' hi' hj'
    unfold tfiNode
    rw [(hT i' hi').2.2, R_bind_ok, (hR j' hj').2.2, R_bind_ok, rd_ok hj', R_bind_ok,
      lineSum_eq (A := A i') (x := x j') (hA i' hi'), R_bind_ok, rd_ok hi', R_bind_ok,
      lineSum_eq (A := B j') (x := y i') (hB j' hj'), R_bind_ok, latticeSum_eq (hA i' hi') (hB j' hj') hxy, R_bind_ok]
    · rfl
    · intro j m hj hm
      have := hy i' j m hi' hj hm
      unfold Spec.at3 at this
      rw [List.getElem?_eq_getElem hi', Option.bind_some] at this
      obtain ⟨r, r1, r2⟩ := Option.bind_eq_some_iff.mp this
      exact ⟨r, r1, r2⟩
    · intro j m hj hm
      have := hx j' j m hj' hj hm
      unfold Spec.at3 at this
      rw [List.getElem?_eq_getElem hj', Option.bind_some] at this
      obtain ⟨r, r1, r2⟩ := Option.bind_eq_some_iff.mp this
      exact ⟨r, r1, r2⟩
  obtain ⟨pts, ep, lp, hp⟩ := meshLoop (nj := lat.Xksi.length) hni hnode
  refine ⟨pts, ?_, lp, ?_, ?_⟩
  · unfold tfiMesh
    rw [eF, R_bind_ok, eG, R_bind_ok]
    exact ep
  · intro i' k hi' hk' ht hc j' hj'
    rw [hp i' j' hi' hj']
    have hTk : T i' = kf ksi k := by
      have := (hT i' hi').2.2
      rw [ht] at this
      exact (Except.ok.inj this).symm
    have hAd : ∀ i n, i < ksi.length → n < P → A i' i n = if i = k ∧ n = 0 then 1 else 0 := by
      intro i n hi hn
      obtain ⟨r, f, e1, e2, e3⟩ := hA i' hi' i n hi hn
      obtain ⟨r', f', e1', e2', -, -, -, -, e3'⟩ := hF i n hi hn
      rw [e1] at e1'; cases e1'
      rw [e2] at e2'; cases e2'
      have := e3' k _ 0 (kf_getElem? hk') (by omega) junk
      rw [hTk] at e3
      rw [e3] at this
      exact Except.ok.inj this
    have s1 : ∑ i ∈ Finset.range ksi.length, ∑ n ∈ Finset.range P, A i' i n • x j' i n = x j' k 0 := by
      rw [← sum_delta (K := K) hk' hP (x j')]
      exact Finset.sum_congr rfl fun i hi => Finset.sum_congr rfl fun n hn => by
        rw [hAd i n (Finset.mem_range.mp hi) (Finset.mem_range.mp hn)]
    have s2 : ∑ i ∈ Finset.range ksi.length, ∑ j ∈ Finset.range eth.length, ∑ n ∈ Finset.range P, ∑ m ∈ Finset.range Q,
        (A i' i n * B j' j m) • xy i j n m = ∑ j ∈ Finset.range eth.length, ∑ m ∈ Finset.range Q, B j' j m • y i' j m := by
      have : ∀ i ∈ Finset.range ksi.length, ∑ j ∈ Finset.range eth.length, ∑ n ∈ Finset.range P, ∑ m ∈ Finset.range Q,
          (A i' i n * B j' j m) • xy i j n m = ∑ n ∈ Finset.range P, (if i = k ∧ n = 0 then (1 : K) else 0) •
            ∑ j ∈ Finset.range eth.length, ∑ m ∈ Finset.range Q, B j' j m • xy i j n m := by
        intro i hi
        rw [Finset.sum_comm]
        refine Finset.sum_congr rfl fun n hn => ?_
        rw [hAd i n (Finset.mem_range.mp hi) (Finset.mem_range.mp hn), Finset.smul_sum]
        refine Finset.sum_congr rfl fun j _ => ?_
        rw [Finset.smul_sum]
        exact Finset.sum_congr rfl fun m _ => by rw [mul_smul]
      rw [Finset.sum_congr rfl this, sum_delta (K := K) hk' hP fun i n =>
        ∑ j ∈ Finset.range eth.length, ∑ m ∈ Finset.range Q, B j' j m • xy i j n m]
      exact Finset.sum_congr rfl fun j hj => Finset.sum_congr rfl fun m hm => by
        rw [hc j m (Finset.mem_range.mp hj) (Finset.mem_range.mp hm)]
    rw [s1, s2, add_sub_cancel_right]
  · intro j' l hj' hl ht hc i' hi'
    rw [hp i' j' hi' hj']
    have hTk : S j' = kf eth l := by
      have := (hR j' hj').2.2
      rw [ht] at this
      exact (Except.ok.inj this).symm
    have hBd : ∀ i n, i < eth.length → n < Q → B j' i n = if i = l ∧ n = 0 then 1 else 0 := by
      intro i n hi hn
      obtain ⟨r, f, e1, e2, e3⟩ := hB j' hj' i n hi hn
      obtain ⟨r', f', e1', e2', -, -, -, -, e3'⟩ := hG i n hi hn
      rw [e1] at e1'; cases e1'
      rw [e2] at e2'; cases e2'
      have := e3' l _ 0 (kf_getElem? hl) (by omega) junk
      rw [hTk] at e3
      rw [e3] at this
      exact Except.ok.inj this
    have s1 : ∑ j ∈ Finset.range eth.length, ∑ m ∈ Finset.range Q, B j' j m • y i' j m = y i' l 0 := by
      rw [← sum_delta (K := K) hl hQ (y i')]
      exact Finset.sum_congr rfl fun i hi => Finset.sum_congr rfl fun n hn => by
        rw [hBd i n (Finset.mem_range.mp hi) (Finset.mem_range.mp hn)]
    have s2 : ∑ i ∈ Finset.range ksi.length, ∑ j ∈ Finset.range eth.length, ∑ n ∈ Finset.range P, ∑ m ∈ Finset.range Q,
        (A i' i n * B j' j m) • xy i j n m = ∑ i ∈ Finset.range ksi.length, ∑ n ∈ Finset.range P, A i' i n • x j' i n := by
      refine Finset.sum_congr rfl fun i hi => ?_
      rw [Finset.sum_comm]
      refine Finset.sum_congr rfl fun n hn => ?_
      rw [hc i n (Finset.mem_range.mp hi) (Finset.mem_range.mp hn),
        ← sum_delta (K := K) hl hQ fun j m => A i' i n • xy i j n m]
      exact Finset.sum_congr rfl fun j hj => Finset.sum_congr rfl fun m hm => by
        rw [hBd j m (Finset.mem_range.mp hj) (Finset.mem_range.mp hm), mul_comm, mul_smul]
    rw [s1, s2, add_sub_cancel_left]

/-! ## The nodes of the curves -/

theorem uniformDistrib_inv {c : LatticeCurve K V} {u1 u2 : K} {n : ℕ} {s : List K} (h : uniformDistrib c u1 u2 n = .ok s) :
    2 ≤ n ∧ s.length = n ∧ s[0]? = some u1 ∧ s[n - 1]? = some u2 ∧ s.Pairwise (· ≤ ·) := by
  unfold uniformDistrib at h
  split at h
  · cases h
  · rename_i hn
    obtain ⟨⟨l, f⟩, -, h⟩ := R_bind_eq_ok.mp h
    obtain ⟨dm, -, h⟩ := R_bind_eq_ok.mp h
    obtain ⟨mid, hm, h⟩ := R_bind_eq_ok.mp h
    dsimp only at h
    split at h
    · rename_i hs
      cases h
      have hl : mid.length = n - 2 := by
        rw [(mapM_inv hm).1]
        have : ∀ (m : ℕ) (v : K), (genSteps dm v m).length = m := by
          intro m
          induction m with
          | zero => intro v; rfl
          | succ m ih => intro v; rw [genSteps, List.length_cons, ih]
        exact this _ _
      refine ⟨by omega, by simp [hl]; omega, rfl, ?_, hs⟩
      rw [show n - 1 = (n - 2) + 1 by omega, List.getElem?_cons_succ, List.getElem?_append_right (by omega), hl]
      simp
    · cases h

theorem nodeIndex_zero (nui : List ℕ) : Spec.nodeIndex nui 0 = 0 := by simp [Spec.nodeIndex]

theorem nodeIndex_succ {nui : List ℕ} {k n : ℕ} (h : nui[k]? = some n) : Spec.nodeIndex nui (k + 1) = Spec.nodeIndex nui k + (n - 1) := by
  unfold Spec.nodeIndex
  rw [List.take_add_one, h]
  simp

/-- C92: when the nodes of a curve are placed, each segment has at least two nodes, there are the expected number of nodes, the parameters of the
lattice are at the indices of its lines, and all the parameters are between the first and the last. -/
theorem C92_params {c : LatticeCurve K V} {nui : List ℕ} {u p : List K} (hl : nui.length + 1 = u.length) (hn : 2 ≤ u.length)
    (hu : u.Pairwise (· ≤ ·)) (h : segParams c nui u = .ok p) :
    (∀ n ∈ nui, 2 ≤ n) ∧ p.length = Spec.nodeIndex nui nui.length + 1 ∧ (∀ k, k < u.length → p[Spec.nodeIndex nui k]? = u[k]?) ∧
      ∀ t ∈ p, kf u 0 ≤ t ∧ t ≤ kf u (u.length - 1) := by
  unfold segParams at h
  rw [usub_ok (by omega), R_bind_ok] at h
  set m := u.length - 1 with hm
  have key := forLt_okI (fun i (P : List K) => (∀ k n, k < i → nui[k]? = some n → 2 ≤ n) ∧
      P.length = Spec.nodeIndex nui i + (if i = m then 1 else 0) ∧ (∀ k, k < i ∨ (i = m ∧ k = m) → P[Spec.nodeIndex nui k]? = u[k]?) ∧
      ∀ t ∈ P, kf u 0 ≤ t ∧ t ≤ kf u (u.length - 1)) (Nat.zero_le m) h
    ⟨fun k n hk => by omega, by rw [nodeIndex_zero, if_neg (by omega)]; rfl, fun k hk => by omega, by simp⟩ (by
      intro i P P' _ hi hb hI
      obtain ⟨u1, e1, hb⟩ := R_bind_eq_ok.mp hb
      obtain ⟨u2, e2, hb⟩ := R_bind_eq_ok.mp hb
      obtain ⟨n, en, hb⟩ := R_bind_eq_ok.mp hb
      obtain ⟨s, es, hb⟩ := R_bind_eq_ok.mp hb
      obtain ⟨hn2, s1, s2, s3, s4⟩ := uniformDistrib_inv es
      rw [rd_eq_ok] at e1 e2 en
      obtain ⟨I1, I2, I3, I4⟩ := hI
      rw [if_neg (by omega), Nat.add_zero] at I2
      have hidx := nodeIndex_succ en
      have hin : ∀ t ∈ s, kf u 0 ≤ t ∧ t ≤ kf u (u.length - 1) := by
        intro t ht
        obtain ⟨a, ha⟩ := List.getElem?_of_mem ht
        obtain ⟨ha1, ha2⟩ := kf_of_some ha
        have b1 := kf_mono s4 (Nat.zero_le a)
        have b2 := kf_mono s4 (show a ≤ n - 1 by omega)
        rw [ha2, (kf_of_some s2).2, ← (kf_of_some e1).2] at b1
        rw [ha2, (kf_of_some s3).2, ← (kf_of_some e2).2] at b2
        exact ⟨le_trans (kf_mono hu (Nat.zero_le i)) b1, le_trans b2 (kf_mono hu (by omega))⟩
      have hmem : ∀ t ∈ P', kf u 0 ≤ t ∧ t ≤ kf u (u.length - 1) := by
        rw [R_pure_eq_ok] at hb
        subst hb
        intro t ht
        rcases List.mem_append.mp ht with ht | ht
        · exact I4 t ht
        · split at ht
          · exact hin t (List.mem_of_mem_dropLast ht)
          · exact hin t ht
      refine ⟨?_, ?_, ?_, hmem⟩
      · intro k n' hk hn'
        rcases Nat.lt_or_ge k i with hk' | hk'
        · exact I1 k n' hk' hn'
        · obtain rfl : k = i := by omega
          rw [en] at hn'
          cases hn'
          exact hn2
      all_goals
        rw [R_pure_eq_ok] at hb
        subst hb
      · rw [hidx, List.length_append, I2]
        by_cases hlast : i + 2 ≠ u.length
        · rw [if_pos hlast, if_neg (by omega), List.length_dropLast, s1]
          omega
        · rw [if_neg hlast, if_pos (by omega), s1]
          omega
      · intro k hk
        have hfirst : (if i + 2 ≠ u.length then s.dropLast else s)[0]? = some u1 := by
          by_cases hlast : i + 2 ≠ u.length
          · rw [if_pos hlast, List.getElem?_dropLast, if_pos (by omega), s2]
          · rw [if_neg hlast, s2]
        rcases Nat.lt_or_ge k i with hk' | hk'
        · have := I3 k (Or.inl hk')
          have hlt : Spec.nodeIndex nui k < P.length := by
            by_contra hc
            rw [List.getElem?_eq_none (by omega), kf_getElem? (by omega)] at this
            cases this
          rw [List.getElem?_append_left hlt, this]
        · rcases Nat.eq_or_lt_of_le hk' with hk'' | hk''
          · subst hk''
            rw [List.getElem?_append_right (by omega), I2, Nat.sub_self, hfirst, e1]
          · obtain ⟨-, hkm⟩ : i + 1 = m ∧ k = m := by omega
            have : k = i + 1 := by omega
            subst this
            rw [hidx, List.getElem?_append_right (by omega), I2, if_neg (by omega), Nat.add_sub_cancel_left, s3, e2])
  obtain ⟨k1, k2, k3, k4⟩ := key
  refine ⟨?_, ?_, ?_, k4⟩
  · intro n hn'
    obtain ⟨a, ha⟩ := List.getElem?_of_mem hn'
    exact k1 a n (by have := (List.getElem?_eq_some_iff.mp ha).1; omega) ha
  · rw [k2, if_pos rfl, show nui.length = m by omega]
  · intro k hk
    rcases Nat.lt_or_ge k m with hk' | hk'
    · exact k3 k (Or.inl hk')
    · exact k3 k (Or.inr ⟨rfl, by omega⟩)

theorem cumIndex_spec {nui : List ℕ} (h : ∀ n ∈ nui, 2 ≤ n) :
    (cumIndex nui : List K).length = nui.length + 1 ∧ (∀ k, k ≤ nui.length → kf (cumIndex nui : List K) k = (Spec.nodeIndex nui k : K)) ∧
      (cumIndex nui : List K).Pairwise (· < ·) := by
  have hlen : (cumIndex nui : List K).length = nui.length + 1 := by simp [cumIndex]
  have hidx : ∀ k, k ≤ nui.length → (cumIndex nui : List K)[k]? = some (Spec.nodeIndex nui k : K) := by
    intro k
    induction k with
    | zero => intro _; rw [nodeIndex_zero]; simp [cumIndex]
    | succ k ih =>
      intro hk
      have h1 := ih (by omega)
      have hn : nui[k]? = some nui[k] := List.getElem?_eq_getElem (by omega)
      unfold cumIndex at h1 ⊢
      rw [List.getElem?_succ_scanl, h1, hn, nodeIndex_succ hn]
      have := h nui[k] (List.getElem_mem _)
      simp only [Option.bind_some, Option.map_some, Option.some.injEq]
      push_cast [Nat.cast_sub (show 1 ≤ nui[k] by omega)]
      ring
  refine ⟨hlen, fun k hk => (kf_of_some (hidx k hk)).2, ?_⟩
  have hmono : ∀ i j, i < j → j ≤ nui.length → Spec.nodeIndex nui i < Spec.nodeIndex nui j := by
    intro i j hij
    induction j with
    | zero => omega
    | succ j ih =>
      intro hj
      have hn : nui[j]? = some nui[j] := List.getElem?_eq_getElem (by omega)
      have := h nui[j] (List.getElem_mem _)
      rw [nodeIndex_succ hn]
      rcases Nat.lt_or_ge i j with hc | hc
      · have := ih hc (by omega); omega
      · obtain rfl : i = j := by omega
        omega
  rw [List.pairwise_iff_getElem]
  intro i j hi hj hij
  have e1 := hidx i (by omega)
  have e2 := hidx j (by omega)
  rw [List.getElem?_eq_getElem hi, Option.some.injEq] at e1
  rw [List.getElem?_eq_getElem hj, Option.some.injEq] at e2
  rw [e1, e2]
  exact_mod_cast hmono i j hij (by omega)

/-- The arrays of nodes. -/
theorem setNodes_spec {P : ℕ} {crvs : List (LatticeCurve K V)} {params : List (List K)} {N : ℕ} (h0 : 0 < crvs.length)
    (hlen : params.length = crvs.length) (hp : ∀ p ∈ params, p.length = N)
    (hv : ∀ (i : ℕ) (c : LatticeCurve K V) (p : List K), crvs[i]? = some c → params[i]? = some p → ∀ t ∈ p, ∀ n, n < P → ∃ x, c.val t n = .ok x) :
    ∃ (X : List (List (List V))) (x : ℕ → ℕ → ℕ → V), setNodes P crvs params = .ok X ∧ X.length = N ∧
      (∀ j' i n, j' < N → i < crvs.length → n < P → Spec.at3 X j' i n = some (x j' i n)) ∧
      ∀ (j' i n : ℕ) (c : LatticeCurve K V) (p : List K) (t : K), n < P → crvs[i]? = some c → params[i]? = some p → p[j']? = some t →
        c.val t n = .ok (x j' i n) := by
  have e0 : params[0]? = some params[0] := List.getElem?_eq_getElem (by omega)
  have hp0 : params[0].length = N := hp _ (List.getElem_mem _)
  have key : ∀ j' i n, j' < N → i < crvs.length → n < P → ∃ x, ∃ c p t, crvs[i]? = some c ∧ params[i]? = some p ∧ p[j']? = some t ∧
      c.val t n = .ok x := by
    intro j' i n hj hi hn
    have hpi : params[i]? = some params[i] := List.getElem?_eq_getElem (by omega)
    have hlt : j' < params[i].length := by rw [hp _ (List.getElem_mem _)]; exact hj
    obtain ⟨x, hx⟩ := hv i crvs[i] params[i] (List.getElem?_eq_getElem hi) hpi params[i][j'] (List.getElem_mem _) n hn
    exact ⟨x, _, _, _, List.getElem?_eq_getElem hi, hpi, List.getElem?_eq_getElem hlt, hx⟩
  have e1 : ∀ j', j' < N → ∃ y, (List.range crvs.length).mapM (fun i => do
      let c ← rd crvs i
      let p ← rd params i
      let t ← rd p j'
      (List.range P).mapM fun n => c.val t n) = .ok y := by
    intro j' hj
    refine mapM_range_exists fun i hi => ?_
    have hpi : params[i]? = some params[i] := List.getElem?_eq_getElem (by omega)
    have hlt : j' < params[i].length := by rw [hp _ (List.getElem_mem _)]; exact hj
    rw [rd_ok hi, R_bind_ok, rd_eq_ok.mpr hpi, R_bind_ok, rd_ok hlt, R_bind_ok]
    exact mapM_range_exists fun n hn => hv i _ _ (List.getElem?_eq_getElem hi) hpi _ (List.getElem_mem _) n hn
  obtain ⟨X, eX⟩ := mapM_range_exists e1
  obtain ⟨X1, X2⟩ := mapM_range_inv eX
  have hat : ∀ j' i n, ∃ x, j' < N → i < crvs.length → n < P → Spec.at3 X j' i n = some x ∧
      ∀ (c : LatticeCurve K V) (p : List K) (t : K), crvs[i]? = some c → params[i]? = some p → p[j']? = some t → c.val t n = .ok x := by
    intro j' i n
    by_cases h : j' < N ∧ i < crvs.length ∧ n < P
    · obtain ⟨hj, hi, hn⟩ := h
      obtain ⟨Y, eY, hY⟩ := X2 j' hj
      obtain ⟨-, Y2⟩ := mapM_range_inv eY
      obtain ⟨Z, eZ, hZ⟩ := Y2 i hi
      obtain ⟨c, ec, eZ⟩ := R_bind_eq_ok.mp eZ
      obtain ⟨p, ep, eZ⟩ := R_bind_eq_ok.mp eZ
      obtain ⟨t, et, eZ⟩ := R_bind_eq_ok.mp eZ
      obtain ⟨-, Z2⟩ := mapM_range_inv eZ
      obtain ⟨x, ex, hx⟩ := Z2 n hn
      refine ⟨x, fun _ _ _ => ⟨by unfold Spec.at3; rw [hY, Option.bind_some, hZ, Option.bind_some, hx], ?_⟩⟩
      intro c' p' t' hc' hp' ht'
      rw [rd_eq_ok] at ec ep et
      rw [ec] at hc'; cases hc'
      rw [ep] at hp'; cases hp'
      rw [et] at ht'; cases ht'
      exact ex
    · exact ⟨0, fun h1 h2 h3 => absurd ⟨h1, h2, h3⟩ h⟩
  choose x hx using hat
  refine ⟨X, x, ?_, X1, fun j' i n hj hi hn => (hx j' i n hj hi hn).1, ?_⟩
  · unfold setNodes
    rw [rd_eq_ok.mpr e0, R_bind_ok, hp0]
    exact eX
  · intro j' i n c p t hn hc hp' ht
    have hi := (List.getElem?_eq_some_iff.mp hc).1
    have hj : j' < N := by
      rw [← hp p (List.mem_of_getElem? hp')]
      exact (List.getElem?_eq_some_iff.mp ht).1
    exact (hx j' i n hj hi hn).2 c p t hc hp' ht

/-! ## The mesh of a network of curves -/

/-- What makes the two families of nodes meet: sizes, parameters, and the crossings. -/
theorem networkMesh {eps meps : K} (heps : 0 < eps) (hm : 0 ≤ meps) (growth junk : K) {P Q : ℕ} (hP : 1 ≤ P) (hQ : 1 ≤ Q) (slope : Bool)
    (hdP : 2 * (P + slope.toNat) - 1 ≤ stackMaxDegree) (hdQ : 2 * (Q + slope.toNat) - 1 ≤ stackMaxDegree)
    {sparse : ℕ → List (ℕ × ℕ × K) → List K → R (List K)} (hS : Spec.SolvesRegular sparse) {isoKsi isoEth : List (LatticeCurve K V)}
    {pk pe : List (List K)} {ks es : List K} {nKsi nEth : List ℕ} (hks : ks.Pairwise (· < ·)) (hes : es.Pairwise (· < ·))
    (lk : isoKsi.length = ks.length) (le : isoEth.length = es.length) (hk2 : 2 ≤ ks.length) (he2 : 2 ≤ es.length)
    (lnk : nKsi.length + 1 = es.length) (lne : nEth.length + 1 = ks.length) (nk2 : ∀ n ∈ nKsi, 2 ≤ n) (ne2 : ∀ n ∈ nEth, 2 ≤ n)
    (lpk : pk.length = isoKsi.length) (lpe : pe.length = isoEth.length)
    (hpk : ∀ p ∈ pk, p.length = Spec.nodeIndex nKsi nKsi.length + 1) (hpe : ∀ p ∈ pe, p.length = Spec.nodeIndex nEth nEth.length + 1)
    (vk : ∀ (i : ℕ) (c : LatticeCurve K V) (p : List K), isoKsi[i]? = some c → pk[i]? = some p → ∀ t ∈ p, ∀ n, n < P → ∃ x, c.val t n = .ok x)
    (ve : ∀ (i : ℕ) (c : LatticeCurve K V) (p : List K), isoEth[i]? = some c → pe[i]? = some p → ∀ t ∈ p, ∀ n, n < Q → ∃ x, c.val t n = .ok x)
    {Xke : List (List (List (List V)))} {xy : ℕ → ℕ → ℕ → ℕ → V}
    (hxy : ∀ i j n m, i < ks.length → j < es.length → n < P → m < Q → Spec.at4 Xke i j n m = some (xy i j n m))
    (c1 : ∀ (k j m : ℕ) (c : LatticeCurve K V) (p : List K) (t : K), k < ks.length → m < Q → isoEth[j]? = some c → pe[j]? = some p →
      p[Spec.nodeIndex nEth k]? = some t → c.val t m = .ok (xy k j 0 m))
    (c2 : ∀ (l i n : ℕ) (c : LatticeCurve K V) (p : List K) (t : K), l < es.length → n < P → isoKsi[i]? = some c → pk[i]? = some p →
      p[Spec.nodeIndex nKsi l]? = some t → c.val t n = .ok (xy i l n 0)) :
    ∃ X Y f g pts, setNodes P isoKsi pk = .ok X ∧ setNodes Q isoEth pe = .ok Y ∧
      interpolateCn eps meps growth junk 0 sparse ks (cumIndex nEth) 1 = .ok f ∧
      interpolateCn eps meps growth junk 0 sparse es (cumIndex nKsi) 1 = .ok g ∧
      tfiMesh eps meps growth junk sparse P Q slope ⟨X, Y, Xke, f, g⟩ ks es = .ok pts ∧
      X.length = Spec.nodeIndex nKsi nKsi.length + 1 ∧ Y.length = Spec.nodeIndex nEth nEth.length + 1 ∧
      pts.length = (Spec.nodeIndex nEth nEth.length + 1) * (Spec.nodeIndex nKsi nKsi.length + 1) ∧
      (∀ (k : ℕ) (c : LatticeCurve K V) (p : List K) (j' : ℕ) (t : K), isoKsi[k]? = some c → pk[k]? = some p → p[j']? = some t →
        ∃ x, c.val t 0 = .ok x ∧ pts[j' + (Spec.nodeIndex nKsi nKsi.length + 1) * Spec.nodeIndex nEth k]? = some x) ∧
      ∀ (l : ℕ) (c : LatticeCurve K V) (p : List K) (i' : ℕ) (t : K), isoEth[l]? = some c → pe[l]? = some p → p[i']? = some t →
        ∃ x, c.val t 0 = .ok x ∧ pts[Spec.nodeIndex nKsi l + (Spec.nodeIndex nKsi nKsi.length + 1) * i']? = some x := by
  obtain ⟨X, x, eX, lX, hX, hX'⟩ := setNodes_spec (by omega) lpk hpk vk
  obtain ⟨Y, y, eY, lY, hY, hY'⟩ := setNodes_spec (by omega) lpe hpe ve
  obtain ⟨ck1, ck2, ck3⟩ := cumIndex_spec (K := K) nk2
  obtain ⟨ce1, ce2, ce3⟩ := cumIndex_spec (K := K) ne2
  obtain ⟨f, ef, f1, f2⟩ := interpLine heps hm growth junk 0 (Q := ks) (u := cumIndex nEth) (by omega) (by omega) ce3 hS
  obtain ⟨g, eg, g1, g2⟩ := interpLine heps hm growth junk 0 (Q := es) (u := cumIndex nKsi) (by omega) (by omega) ck3 hS
  have bound : ∀ {Z : List K} (hZ : Z.Pairwise (· < ·)), ∀ q ∈ Z, kf Z 0 ≤ q ∧ q ≤ kf Z (Z.length - 1) := by
    intro Z hZ q hq
    obtain ⟨a, ha⟩ := List.getElem?_of_mem hq
    obtain ⟨h1, h2⟩ := kf_of_some ha
    rw [← h2]
    exact ⟨kf_mono (hZ.imp le_of_lt) (Nat.zero_le a), kf_mono (hZ.imp le_of_lt) (by omega)⟩
  have mono : ∀ {nui : List ℕ}, (∀ n ∈ nui, 2 ≤ n) → ∀ k, k ≤ nui.length → Spec.nodeIndex nui k ≤ Spec.nodeIndex nui nui.length := by
    intro nui h k hk
    obtain ⟨h1, h2, h3⟩ := cumIndex_spec (K := K) h
    have := kf_mono (h3.imp le_of_lt) hk
    rw [h2 k hk, h2 _ le_rfl] at this
    exact_mod_cast this
  have twoNodes : 2 ≤ Spec.nodeIndex nEth nEth.length + 1 := by
    obtain ⟨h1, h2, h3⟩ := cumIndex_spec (K := K) ne2
    have h4 : kf (cumIndex nEth : List K) 0 < kf (cumIndex nEth : List K) nEth.length := by
      rw [kf_of_lt (by omega), kf_of_lt (by omega)]
      exact List.pairwise_iff_getElem.mp h3 0 nEth.length _ _ (by omega)
    rw [h2 _ (Nat.zero_le _), h2 _ le_rfl, nodeIndex_zero] at h4
    have : 0 < Spec.nodeIndex nEth nEth.length := by exact_mod_cast h4
    omega
  have hf : ∀ i', i' < Y.length → ∃ t, kf ks 0 ≤ t ∧ t ≤ kf ks (ks.length - 1) ∧ f.value eps junk (i' : K) = .ok t := by
    intro i' hi'
    obtain ⟨t, t1, t2, t3⟩ := f2 _ _ (bound hks) (i' : K) (by rw [ce2 0 (Nat.zero_le _), nodeIndex_zero]; exact_mod_cast Nat.zero_le i')
      (by rw [ce1, Nat.add_sub_cancel, ce2 _ le_rfl]; exact_mod_cast (by omega))
    exact ⟨t, t1, t2, t3 junk⟩
  have hg : ∀ j', j' < X.length → ∃ t, kf es 0 ≤ t ∧ t ≤ kf es (es.length - 1) ∧ g.value eps junk (j' : K) = .ok t := by
    intro j' hj'
    obtain ⟨t, t1, t2, t3⟩ := g2 _ _ (bound hes) (j' : K) (by rw [ck2 0 (Nat.zero_le _), nodeIndex_zero]; exact_mod_cast Nat.zero_le j')
      (by rw [ck1, Nat.add_sub_cancel, ck2 _ le_rfl]; exact_mod_cast (by omega))
    exact ⟨t, t1, t2, t3 junk⟩
  obtain ⟨pts, ep, lp, p1, p2⟩ := C92_mesh (V := V) heps hm growth junk hP hQ slope hdP hdQ hk2 he2 hks hes hS (lat := ⟨X, Y, Xke, f, g⟩)
    (x := x) (y := y) (xy := xy)
    (by rw [lY]; exact twoNodes) (fun j' i n hj hi hn => hX j' i n (by rw [← lX]; exact hj) (by rw [lk]; exact hi) hn)
    (fun i' j m hi hj hm' => hY i' j m (by rw [← lY]; exact hi) (by rw [le]; exact hj) hm') hxy hf hg
  dsimp only at ep lp p1 p2
  refine ⟨X, Y, f, g, pts, eX, eY, ef, eg, ep, lX, lY, by rw [lp, lX, lY], ?_, ?_⟩
  · intro k c p j' t hc hp ht
    have hk : k < ks.length := by rw [← lk]; exact (List.getElem?_eq_some_iff.mp hc).1
    have hik := mono ne2 k (by omega)
    have hj' : j' < X.length := by
      rw [lX, ← hpk p (List.mem_of_getElem? hp)]
      exact (List.getElem?_eq_some_iff.mp ht).1
    refine ⟨x j' k 0, hX' j' k 0 c p t (by omega) hc hp ht, ?_⟩
    rw [← lX]
    refine p1 (Spec.nodeIndex nEth k) k (by omega) hk ?_ ?_ j' hj'
    · rw [← ce2 k (by omega)]
      exact f1 k (by omega) junk
    · intro j m hj hm'
      have ej : isoEth[j]? = some isoEth[j] := List.getElem?_eq_getElem (by omega)
      have epj : pe[j]? = some pe[j] := List.getElem?_eq_getElem (by omega)
      have hlt : Spec.nodeIndex nEth k < pe[j].length := by rw [hpe _ (List.getElem_mem _)]; omega
      have a1 := c1 k j m _ _ _ hk hm' ej epj (List.getElem?_eq_getElem hlt)
      have a2 := hY' _ j m _ _ _ hm' ej epj (List.getElem?_eq_getElem hlt)
      rw [a1] at a2
      exact (Except.ok.inj a2).symm
  · intro l c p i' t hc hp ht
    have hl : l < es.length := by rw [← le]; exact (List.getElem?_eq_some_iff.mp hc).1
    have hil := mono nk2 l (by omega)
    have hi' : i' < Y.length := by
      rw [lY, ← hpe p (List.mem_of_getElem? hp)]
      exact (List.getElem?_eq_some_iff.mp ht).1
    refine ⟨y i' l 0, hY' i' l 0 c p t (by omega) hc hp ht, ?_⟩
    rw [← lX]
    refine p2 (Spec.nodeIndex nKsi l) l (by omega) hl ?_ ?_ i' hi'
    · rw [← ck2 l (by omega)]
      exact g1 l (by omega) junk
    · intro i n hi hn
      have ei : isoKsi[i]? = some isoKsi[i] := List.getElem?_eq_getElem (by omega)
      have epi : pk[i]? = some pk[i] := List.getElem?_eq_getElem (by omega)
      have hlt : Spec.nodeIndex nKsi l < pk[i].length := by rw [hpk _ (List.getElem_mem _)]; omega
      have a1 := c2 l i n _ _ _ hl hn ei epi (List.getElem?_eq_getElem hlt)
      have a2 := hX' _ i n _ _ _ hn ei epi (List.getElem?_eq_getElem hlt)
      rw [a1] at a2
      exact (Except.ok.inj a2).symm

/-- The surface of the lattice, if there is one, has the values and the derivatives of the curves at the crossings, and all the mixed derivatives
that are read. -/
def Spec.SurfaceMeets (P Q : ℕ) (isoKsi isoEth : List (LatticeCurve K V)) (ksi eth : List K) (srf : Option (K → K → ℕ → ℕ → R V)) : Prop :=
  ∀ s, srf = some s → ∀ (i j : ℕ) (c d : LatticeCurve K V) (a b : K), isoKsi[i]? = some c → isoEth[j]? = some d → ksi[i]? = some a → eth[j]? = some b →
    (∀ n, n < P → s a b 0 n = c.val b n) ∧ (∀ m, m < Q → s a b m 0 = d.val a m) ∧ ∀ n m, n < P → m < Q → ∃ x, s a b m n = .ok x

theorem crossings_spec {P Q : ℕ} (hP : 1 ≤ P) (hQ : 1 ≤ Q) {isoKsi isoEth : List (LatticeCurve K V)} {ksi eth : List K}
    {srf : Option (K → K → ℕ → ℕ → R V)} (lk : isoKsi.length = ksi.length) (le : isoEth.length = eth.length)
    (vk : ∀ c ∈ isoKsi, ∀ t ∈ eth, ∀ n, n < P → ∃ x, c.val t n = .ok x) (ve : ∀ c ∈ isoEth, ∀ t ∈ ksi, ∀ n, n < Q → ∃ x, c.val t n = .ok x)
    (hmeet : ∀ (i j : ℕ) (c d : LatticeCurve K V) (a b : K), isoKsi[i]? = some c → isoEth[j]? = some d → ksi[i]? = some a → eth[j]? = some b →
      d.val a 0 = c.val b 0)
    (hs : Spec.SurfaceMeets P Q isoKsi isoEth ksi eth srf) :
    ∃ (X : List (List (List (List V)))) (xy : ℕ → ℕ → ℕ → ℕ → V), crossings P Q isoKsi isoEth ksi eth srf = .ok X ∧
      (∀ i j n m, i < ksi.length → j < eth.length → n < P → m < Q → Spec.at4 X i j n m = some (xy i j n m)) ∧
      ∀ (i j : ℕ) (c d : LatticeCurve K V) (a b : K), isoKsi[i]? = some c → isoEth[j]? = some d → ksi[i]? = some a → eth[j]? = some b →
        (∀ n, n < P → c.val b n = .ok (xy i j n 0)) ∧ ∀ m, m < Q → d.val a m = .ok (xy i j 0 m) := by
  set e : ℕ → ℕ → ℕ → ℕ → R V := fun i j n m => do
    let a ← rd ksi i
    let b ← rd eth j
    match srf with
    | some s => s a b m n
    | none =>
      if m = 0 then do
        let c ← rd isoKsi i
        c.val b n
      else if n = 0 then do
        let c ← rd isoEth j
        c.val a m
      else pure 0 with he
  have key : ∀ i j n m, i < ksi.length → j < eth.length → n < P → m < Q → ∃ x, e i j n m = .ok x ∧
      (m = 0 → ∀ c b, isoKsi[i]? = some c → eth[j]? = some b → c.val b n = .ok x) ∧
      (n = 0 → ∀ d a, isoEth[j]? = some d → ksi[i]? = some a → d.val a m = .ok x) := by
    intro i j n m hi hj hn hm
    have ea : ksi[i]? = some ksi[i] := List.getElem?_eq_getElem hi
    have eb : eth[j]? = some eth[j] := List.getElem?_eq_getElem hj
    have ec : isoKsi[i]? = some isoKsi[i] := List.getElem?_eq_getElem (by omega)
    have ed : isoEth[j]? = some isoEth[j] := List.getElem?_eq_getElem (by omega)
    simp only [he, rd_eq_ok.mpr ea, rd_eq_ok.mpr eb, R_bind_ok]
    have mt := hmeet i j _ _ _ _ ec ed ea eb
    cases srf with
    | some s =>
      obtain ⟨s1, s2, s3⟩ := hs s rfl i j _ _ _ _ ec ed ea eb
      obtain ⟨x, hx⟩ := s3 n m hn hm
      refine ⟨x, hx, ?_, ?_⟩
      · rintro rfl c b h1 h2
        rw [ec] at h1; cases h1
        rw [eb] at h2; cases h2
        rw [← s1 n hn, hx]
      · rintro rfl d a h1 h2
        rw [ed] at h1; cases h1
        rw [ea] at h2; cases h2
        rw [← s2 m hm, hx]
    | none =>
      dsimp only
      by_cases hm0 : m = 0
      · obtain ⟨x, hx⟩ := vk isoKsi[i] (List.getElem_mem _) eth[j] (List.getElem_mem _) n hn
        refine ⟨x, by rw [if_pos hm0, rd_eq_ok.mpr ec, R_bind_ok, hx], ?_, ?_⟩
        · rintro - c b h1 h2
          rw [ec] at h1; cases h1
          rw [eb] at h2; cases h2
          exact hx
        · rintro rfl d a h1 h2
          rw [ed] at h1; cases h1
          rw [ea] at h2; cases h2
          rw [hm0, mt, hx]
      · by_cases hn0 : n = 0
        · obtain ⟨x, hx⟩ := ve isoEth[j] (List.getElem_mem _) ksi[i] (List.getElem_mem _) m hm
          refine ⟨x, by rw [if_neg hm0, if_pos hn0, rd_eq_ok.mpr ed, R_bind_ok, hx], fun h => absurd h hm0, ?_⟩
          rintro - d a h1 h2
          rw [ed] at h1; cases h1
          rw [ea] at h2; cases h2
          exact hx
        · exact ⟨0, by rw [if_neg hm0, if_neg hn0]; rfl, fun h => absurd h hm0, fun h => absurd h hn0⟩
  obtain ⟨X, eX⟩ : ∃ X, (List.range ksi.length).mapM (fun i => (List.range eth.length).mapM fun j => (List.range P).mapM fun n =>
      (List.range Q).mapM fun m => e i j n m) = .ok X :=
    mapM_range_exists fun i hi => mapM_range_exists fun j hj => mapM_range_exists fun n hn => mapM_range_exists fun m hm => by
      obtain ⟨x, hx, -⟩ := key i j n m hi hj hn hm
      exact ⟨x, hx⟩
  have hat : ∀ i j n m, ∃ x, i < ksi.length → j < eth.length → n < P → m < Q → Spec.at4 X i j n m = some x ∧ e i j n m = .ok x := by
    intro i j n m
    by_cases h : i < ksi.length ∧ j < eth.length ∧ n < P ∧ m < Q
    · obtain ⟨hi, hj, hn, hm⟩ := h
      obtain ⟨x1, e1, h1⟩ := (mapM_range_inv eX).2 i hi
      obtain ⟨x2, e2, h2⟩ := (mapM_range_inv e1).2 j hj
      obtain ⟨x3, e3, h3⟩ := (mapM_range_inv e2).2 n hn
      obtain ⟨x4, e4, h4⟩ := (mapM_range_inv e3).2 m hm
      exact ⟨x4, fun _ _ _ _ => ⟨by unfold Spec.at4; rw [h1, Option.bind_some, h2, Option.bind_some, h3, Option.bind_some, h4], e4⟩⟩
    · exact ⟨0, fun h1 h2 h3 h4 => absurd ⟨h1, h2, h3, h4⟩ h⟩
  choose xy hxy using hat
  refine ⟨X, xy, eX, fun i j n m hi hj hn hm => (hxy i j n m hi hj hn hm).1, ?_⟩
  intro i j c d a b hc hd ha hb
  have hi := (List.getElem?_eq_some_iff.mp ha).1
  have hj := (List.getElem?_eq_some_iff.mp hb).1
  refine ⟨fun n hn => ?_, fun m hm => ?_⟩
  · obtain ⟨x, h1, h2, -⟩ := key i j n 0 hi hj hn hQ
    rw [(hxy i j n 0 hi hj hn hQ).2] at h1
    cases h1
    exact h2 rfl c b hc hb
  · obtain ⟨x, h1, -, h2⟩ := key i j 0 m hi hj hP hm
    rw [(hxy i j 0 m hi hj hP hm).2] at h1
    cases h1
    exact h2 rfl d a hd ha

/-- The mesh contains the curves: line `k` of one family is at the index of line `k`, with the nodes at the parameters `pk` of that curve, and so for
the other family. -/
def Spec.MeshHas (isoKsi isoEth : List (LatticeCurve K V)) (pk pe : ℕ → List K) (nKsi nEth : List ℕ) (pts : List V) : Prop :=
  pts.length = (Spec.nodeIndex nEth nEth.length + 1) * (Spec.nodeIndex nKsi nKsi.length + 1) ∧
  (∀ (k : ℕ) (c : LatticeCurve K V) (j' : ℕ) (t : K), isoKsi[k]? = some c → (pk k)[j']? = some t →
    ∃ x, c.val t 0 = .ok x ∧ pts[j' + (Spec.nodeIndex nKsi nKsi.length + 1) * Spec.nodeIndex nEth k]? = some x) ∧
  ∀ (l : ℕ) (c : LatticeCurve K V) (i' : ℕ) (t : K), isoEth[l]? = some c → (pe l)[i']? = some t →
    ∃ x, c.val t 0 = .ok x ∧ pts[Spec.nodeIndex nKsi l + (Spec.nodeIndex nKsi nKsi.length + 1) * i']? = some x

theorem sameBounds_ok {eps : K} {crvs : List (LatticeCurve K V)} (h0 : 0 < crvs.length)
    (hb : ∀ c ∈ crvs, ∀ d ∈ crvs, |d.b0 - c.b0| < eps ∧ |d.b1 - c.b1| < eps) : sameBounds eps crvs = .ok true := by
  cases crvs with
  | nil => simp at h0
  | cons c cs =>
    unfold sameBounds
    dsimp only
    rw [R_pure, Except.ok.injEq, List.all_eq_true]
    intro x hx
    have := hb c (by simp) x (by simp [hx])
    simp [this.1, this.2]

/-- C92: for a network of curves that meet at the crossings, the mesh by transfinite interpolation is built and contains the nodes of all the curves of
both families, whatever the orders of derivation `P` and `Q`, with or without control of the slope, with or without a surface. -/
theorem C92_contains {eps meps : K} (heps : 0 < eps) (hm : 0 ≤ meps) (growth junk : K) {P Q : ℕ} (hP : 1 ≤ P) (hQ : 1 ≤ Q) (slope : Bool)
    (hdP : 2 * (P + slope.toNat) - 1 ≤ stackMaxDegree) (hdQ : 2 * (Q + slope.toNat) - 1 ≤ stackMaxDegree)
    {sparse : ℕ → List (ℕ × ℕ × K) → List K → R (List K)} (hS : Spec.SolvesRegular sparse) {isoKsi isoEth : List (LatticeCurve K V)}
    {ksi eth : List K} {nKsi nEth : List ℕ} {srf : Option (K → K → ℕ → ℕ → R V)} {round : K → ℕ} {sk se : ℕ}
    (hks : ksi.Pairwise (· < ·)) (hes : eth.Pairwise (· < ·)) (hk2 : 2 ≤ ksi.length) (he2 : 2 ≤ eth.length)
    (lk : isoKsi.length = ksi.length) (le : isoEth.length = eth.length)
    (bk : ∀ c ∈ isoKsi, ∀ d ∈ isoKsi, |d.b0 - c.b0| < eps ∧ |d.b1 - c.b1| < eps)
    (be : ∀ c ∈ isoEth, ∀ d ∈ isoEth, |d.b0 - c.b0| < eps ∧ |d.b1 - c.b1| < eps)
    (zk : setSizesN round isoKsi eth sk = .ok nKsi) (ze : setSizesN round isoEth ksi se = .ok nEth) {pk pe : ℕ → List K}
    (ek : ∀ (i : ℕ) (c : LatticeCurve K V), isoKsi[i]? = some c → segParams c nKsi eth = .ok (pk i))
    (ee : ∀ (j : ℕ) (c : LatticeCurve K V), isoEth[j]? = some c → segParams c nEth ksi = .ok (pe j))
    (vk : ∀ c ∈ isoKsi, ∀ t, kf eth 0 ≤ t → t ≤ kf eth (eth.length - 1) → ∀ n, n < P → ∃ x, c.val t n = .ok x)
    (ve : ∀ c ∈ isoEth, ∀ t, kf ksi 0 ≤ t → t ≤ kf ksi (ksi.length - 1) → ∀ n, n < Q → ∃ x, c.val t n = .ok x)
    (hmeet : ∀ (i j : ℕ) (c d : LatticeCurve K V) (a b : K), isoKsi[i]? = some c → isoEth[j]? = some d → ksi[i]? = some a → eth[j]? = some b →
      d.val a 0 = c.val b 0)
    (hs : Spec.SurfaceMeets P Q isoKsi isoEth ksi eth srf) :
    ∃ pts, tfiMeshCurves eps meps growth junk sparse round P Q slope isoKsi isoEth ksi eth sk se srf =
        .ok (pts, Spec.nodeIndex nKsi nKsi.length + 1, Spec.nodeIndex nEth nEth.length + 1, nKsi, nEth) ∧
      Spec.MeshHas isoKsi isoEth pk pe nKsi nEth pts := by
  have sizes : ∀ {crvs : List (LatticeCurve K V)} {u : List K} {n : ℕ} {r : List ℕ}, 2 ≤ u.length → setSizesN round crvs u n = .ok r →
      r.length + 1 = u.length := by
    intro crvs u n r hu h
    unfold setSizesN at h
    obtain ⟨_, -, h⟩ := R_bind_eq_ok.mp h
    obtain ⟨_, -, h⟩ := R_bind_eq_ok.mp h
    obtain ⟨_, -, h⟩ := R_bind_eq_ok.mp h
    obtain ⟨_, -, h⟩ := R_bind_eq_ok.mp h
    unfold setSizes at h
    rw [usub_ok (by omega), R_bind_ok] at h
    rw [(mapM_range_inv h).1]
    omega
  have lnk := sizes he2 zk
  have lne := sizes hk2 ze
  -- the parameters
  have params : ∀ {crvs : List (LatticeCurve K V)} {nui : List ℕ} {u : List K} {q : ℕ → List K},
      (∀ (i : ℕ) (c : LatticeCurve K V), crvs[i]? = some c → segParams c nui u = .ok (q i)) →
      crvs.mapM (fun c => segParams c nui u) = .ok ((List.range crvs.length).map q) := by
    intro crvs nui u q h
    obtain ⟨r, hr⟩ := mapM_exists (f := fun c => segParams c nui u) crvs fun c hc => by
      obtain ⟨i, hi⟩ := List.getElem?_of_mem hc
      exact ⟨_, h i c hi⟩
    rw [hr]
    obtain ⟨r1, r2⟩ := mapM_inv hr
    congr 1
    apply List.ext_getElem?
    intro i
    rcases Nat.lt_or_ge i crvs.length with hi | hi
    · obtain ⟨y, y1, y2⟩ := r2 i _ (List.getElem?_eq_getElem hi)
      rw [h i _ (List.getElem?_eq_getElem hi)] at y1
      cases y1
      rw [y2, List.getElem?_map, List.getElem?_range hi]
      rfl
    · rw [List.getElem?_eq_none (by omega), List.getElem?_eq_none (by simpa using hi)]
  have qk : ∀ i (hi : i < isoKsi.length), _ := fun i hi => C92_params lnk he2 (hes.imp le_of_lt) (ek i _ (List.getElem?_eq_getElem hi))
  have qe : ∀ i (hi : i < isoEth.length), _ := fun i hi => C92_params lne hk2 (hks.imp le_of_lt) (ee i _ (List.getElem?_eq_getElem hi))
  have inBounds : ∀ {Z : List K}, Z.Pairwise (· < ·) → ∀ t ∈ Z, kf Z 0 ≤ t ∧ t ≤ kf Z (Z.length - 1) := by
    intro Z hZ q hq
    obtain ⟨a, ha⟩ := List.getElem?_of_mem hq
    obtain ⟨h1, h2⟩ := kf_of_some ha
    rw [← h2]
    exact ⟨kf_mono (hZ.imp le_of_lt) (Nat.zero_le a), kf_mono (hZ.imp le_of_lt) (by omega)⟩
  obtain ⟨Xke, xy, eXY, hxy, hcr⟩ := crossings_spec hP hQ lk le
    (fun c hc t ht n hn => vk c hc t (inBounds hes t ht).1 (inBounds hes t ht).2 n hn)
    (fun c hc t ht n hn => ve c hc t (inBounds hks t ht).1 (inBounds hks t ht).2 n hn) hmeet hs
  have getk : ∀ i p, ((List.range isoKsi.length).map pk)[i]? = some p → i < isoKsi.length ∧ p = pk i := by
    intro i p h
    have hi : i < isoKsi.length := by simpa using (List.getElem?_eq_some_iff.mp h).1
    rw [List.getElem?_map, List.getElem?_range hi] at h
    exact ⟨hi, by cases h; rfl⟩
  have gete : ∀ i p, ((List.range isoEth.length).map pe)[i]? = some p → i < isoEth.length ∧ p = pe i := by
    intro i p h
    have hi : i < isoEth.length := by simpa using (List.getElem?_eq_some_iff.mp h).1
    rw [List.getElem?_map, List.getElem?_range hi] at h
    exact ⟨hi, by cases h; rfl⟩
  obtain ⟨X, Y, f, g, pts, eX, eY, ef, eg, ep, lX, lY, h1, h2, h3⟩ := networkMesh heps hm growth junk hP hQ slope hdP hdQ hS
    (pk := (List.range isoKsi.length).map pk) (pe := (List.range isoEth.length).map pe) hks hes lk le hk2 he2 lnk lne
    (qk 0 (by omega)).1 (qe 0 (by omega)).1 (by simp) (by simp)
    (by
      intro p hp
      obtain ⟨i, hi, rfl⟩ := List.mem_map.mp hp
      exact (qk i (List.mem_range.mp hi)).2.1)
    (by
      intro p hp
      obtain ⟨i, hi, rfl⟩ := List.mem_map.mp hp
      exact (qe i (List.mem_range.mp hi)).2.1)
    (by
      intro i c p hc hp t ht n hn
      obtain ⟨hi, rfl⟩ := getk i p hp
      have := (qk i hi).2.2.2 t ht
      exact vk c (List.mem_of_getElem? hc) t this.1 this.2 n hn)
    (by
      intro i c p hc hp t ht n hn
      obtain ⟨hi, rfl⟩ := gete i p hp
      have := (qe i hi).2.2.2 t ht
      exact ve c (List.mem_of_getElem? hc) t this.1 this.2 n hn)
    hxy
    (by
      intro k j m c p t hk hm' hc hp ht
      obtain ⟨hj, rfl⟩ := gete j p hp
      rw [(qe j hj).2.2.1 k hk] at ht
      exact (hcr k j _ c t _ (List.getElem?_eq_getElem (by omega)) hc ht (List.getElem?_eq_getElem (by omega))).2 m hm')
    (by
      intro l i n c p t hl hn hc hp ht
      obtain ⟨hi, rfl⟩ := getk i p hp
      rw [(qk i hi).2.2.1 l hl] at ht
      exact (hcr i l c _ _ t hc (List.getElem?_eq_getElem (by omega)) (List.getElem?_eq_getElem (by omega)) ht).1 n hn)
  refine ⟨pts, ?_, h1, ?_, ?_⟩
  · unfold tfiMeshCurves mshCurvesLattice mshCurvesSet
    rw [ze, R_bind_ok, zk, R_bind_ok, if_neg (show ¬nKsi.length + 1 ≠ eth.length by omega), sameBounds_ok (by omega) bk, R_bind_ok,
      if_neg (show ¬nEth.length + 1 ≠ ksi.length by omega), sameBounds_ok (by omega) be, R_bind_ok, params ek, params ee]
    simp only [R_bind_ok, R_pure, Bool.not_true, Bool.false_eq_true, if_false, eX, eY, eXY, ef, eg, ep, lX, lY]
  · intro k c j' t hc ht
    have hk : k < isoKsi.length := (List.getElem?_eq_some_iff.mp hc).1
    exact h2 k c (pk k) j' t hc (by rw [List.getElem?_map, List.getElem?_range hk]; rfl) ht
  · intro l c i' t hc ht
    have hl : l < isoEth.length := (List.getElem?_eq_some_iff.mp hc).1
    exact h3 l c (pe l) i' t hc (by rw [List.getElem?_map, List.getElem?_range hl]; rfl) ht

theorem crossingsL_spec {P Q : ℕ} (hP : 1 ≤ P) (hQ : 1 ≤ Q) {isoKsi isoEth : List (LatticeCurve K V)} {ksi eth : List (List K)} {L M : ℕ}
    (lk : isoKsi.length = L) (le : isoEth.length = M) (lke : eth.length = L) (lek : ksi.length = M) (hle : ∀ e ∈ eth, e.length = M)
    (hlk : ∀ k ∈ ksi, k.length = L)
    (vk : ∀ (i : ℕ) (c : LatticeCurve K V) (e : List K), isoKsi[i]? = some c → eth[i]? = some e → ∀ t ∈ e, ∀ n, n < P → ∃ x, c.val t n = .ok x)
    (ve : ∀ (j : ℕ) (c : LatticeCurve K V) (k : List K), isoEth[j]? = some c → ksi[j]? = some k → ∀ t ∈ k, ∀ n, n < Q → ∃ x, c.val t n = .ok x)
    (hmeet : ∀ (i j : ℕ) (c d : LatticeCurve K V) (k e : List K) (a b : K), isoKsi[i]? = some c → isoEth[j]? = some d → ksi[j]? = some k →
      k[i]? = some a → eth[i]? = some e → e[j]? = some b → d.val a 0 = c.val b 0) :
    ∃ (X : List (List (List (List V)))) (xy : ℕ → ℕ → ℕ → ℕ → V), crossingsL P Q L M isoKsi isoEth ksi eth = .ok X ∧
      (∀ i j n m, i < L → j < M → n < P → m < Q → Spec.at4 X i j n m = some (xy i j n m)) ∧
      ∀ (i j : ℕ) (c d : LatticeCurve K V) (k e : List K) (a b : K), isoKsi[i]? = some c → isoEth[j]? = some d → ksi[j]? = some k →
        k[i]? = some a → eth[i]? = some e → e[j]? = some b →
        (∀ n, n < P → c.val b n = .ok (xy i j n 0)) ∧ ∀ m, m < Q → d.val a m = .ok (xy i j 0 m) := by
  set f : ℕ → ℕ → ℕ → ℕ → R V := fun i j n m =>
    if m = 0 then do
      let c ← rd isoKsi i
      let e ← rd eth i
      let b ← rd e j
      c.val b n
    else if n = 0 then do
      let c ← rd isoEth j
      let k ← rd ksi j
      let a ← rd k i
      c.val a m
    else pure 0 with hf
  have key : ∀ i j n m, i < L → j < M → n < P → m < Q → ∃ x, f i j n m = .ok x ∧
      (m = 0 → ∀ c e b, isoKsi[i]? = some c → eth[i]? = some e → e[j]? = some b → c.val b n = .ok x) ∧
      (n = 0 → ∀ d k a, isoEth[j]? = some d → ksi[j]? = some k → k[i]? = some a → d.val a m = .ok x) := by
    intro i j n m hi hj hn hm
    have ec : isoKsi[i]? = some isoKsi[i] := List.getElem?_eq_getElem (by omega)
    have ed : isoEth[j]? = some isoEth[j] := List.getElem?_eq_getElem (by omega)
    have ee : eth[i]? = some eth[i] := List.getElem?_eq_getElem (by omega)
    have ek : ksi[j]? = some ksi[j] := List.getElem?_eq_getElem (by omega)
    have eb : eth[i][j]? = some (eth[i][j]'(by rw [hle _ (List.getElem_mem _)]; exact hj)) := List.getElem?_eq_getElem _
    have ea : ksi[j][i]? = some (ksi[j][i]'(by rw [hlk _ (List.getElem_mem _)]; exact hi)) := List.getElem?_eq_getElem _
    simp only [hf]
    have mt := hmeet i j _ _ _ _ _ _ ec ed ek ea ee eb
    by_cases hm0 : m = 0
    · obtain ⟨x, hx⟩ := vk i _ _ ec ee _ (List.mem_of_getElem? eb) n hn
      refine ⟨x, ?_, ?_, ?_⟩
      · rw [if_pos hm0, rd_eq_ok.mpr ec, R_bind_ok, rd_eq_ok.mpr ee, R_bind_ok, rd_eq_ok.mpr eb, R_bind_ok, hx]
      · rintro - c e b h1 h2 h3
        rw [ec] at h1; cases h1
        rw [ee] at h2; cases h2
        rw [eb] at h3; cases h3
        exact hx
      · rintro rfl d k a h1 h2 h3
        rw [ed] at h1; cases h1
        rw [ek] at h2; cases h2
        rw [ea] at h3; cases h3
        rw [hm0, mt, hx]
    · by_cases hn0 : n = 0
      · obtain ⟨x, hx⟩ := ve j _ _ ed ek _ (List.mem_of_getElem? ea) m hm
        refine ⟨x, ?_, fun h => absurd h hm0, ?_⟩
        · rw [if_neg hm0, if_pos hn0, rd_eq_ok.mpr ed, R_bind_ok, rd_eq_ok.mpr ek, R_bind_ok, rd_eq_ok.mpr ea, R_bind_ok, hx]
        · rintro - d k a h1 h2 h3
          rw [ed] at h1; cases h1
          rw [ek] at h2; cases h2
          rw [ea] at h3; cases h3
          exact hx
      · exact ⟨0, by rw [if_neg hm0, if_neg hn0]; rfl, fun h => absurd h hm0, fun h => absurd h hn0⟩
  obtain ⟨X, eX⟩ : ∃ X, (List.range L).mapM (fun i => (List.range M).mapM fun j => (List.range P).mapM fun n =>
      (List.range Q).mapM fun m => f i j n m) = .ok X :=
    mapM_range_exists fun i hi => mapM_range_exists fun j hj => mapM_range_exists fun n hn => mapM_range_exists fun m hm => by
      obtain ⟨x, hx, -⟩ := key i j n m hi hj hn hm
      exact ⟨x, hx⟩
  have hat : ∀ i j n m, ∃ x, i < L → j < M → n < P → m < Q → Spec.at4 X i j n m = some x ∧ f i j n m = .ok x := by
    intro i j n m
    by_cases h : i < L ∧ j < M ∧ n < P ∧ m < Q
    · obtain ⟨hi, hj, hn, hm⟩ := h
      obtain ⟨x1, e1, h1⟩ := (mapM_range_inv eX).2 i hi
      obtain ⟨x2, e2, h2⟩ := (mapM_range_inv e1).2 j hj
      obtain ⟨x3, e3, h3⟩ := (mapM_range_inv e2).2 n hn
      obtain ⟨x4, e4, h4⟩ := (mapM_range_inv e3).2 m hm
      exact ⟨x4, fun _ _ _ _ => ⟨by unfold Spec.at4; rw [h1, Option.bind_some, h2, Option.bind_some, h3, Option.bind_some, h4], e4⟩⟩
    · exact ⟨0, fun h1 h2 h3 h4 => absurd ⟨h1, h2, h3, h4⟩ h⟩
  choose xy hxy using hat
  refine ⟨X, xy, eX, fun i j n m hi hj hn hm => (hxy i j n m hi hj hn hm).1, ?_⟩
  intro i j c d k e a b hc hd hk ha he hb
  have hi : i < L := by rw [← lk]; exact (List.getElem?_eq_some_iff.mp hc).1
  have hj : j < M := by rw [← le]; exact (List.getElem?_eq_some_iff.mp hd).1
  refine ⟨fun n hn => ?_, fun m hm => ?_⟩
  · obtain ⟨x, h1, h2, -⟩ := key i j n 0 hi hj hn hQ
    rw [(hxy i j n 0 hi hj hn hQ).2] at h1
    cases h1
    exact h2 rfl c e b hc he hb
  · obtain ⟨x, h1, -, h2⟩ := key i j 0 m hi hj hP hm
    rw [(hxy i j 0 m hi hj hP hm).2] at h1
    cases h1
    exact h2 rfl d k a hd hk ha

theorem makeRange_lt {n : ℕ} (hn : 2 ≤ n) : ∃ v : List K, makeRange 0 1 n = .ok v ∧ v.length = n ∧ v.Pairwise (· < ·) := by
  obtain ⟨v, e, l, -, -, hv⟩ := (C33_make_range (0 : K) 1 n).2 hn
  refine ⟨v, e, l, ?_⟩
  rw [List.pairwise_iff_getElem]
  intro i j hi hj hij
  have h1 := hv i (by omega)
  have h2 := hv j (by omega)
  rw [List.getElem?_eq_getElem hi, Option.some.injEq] at h1
  rw [List.getElem?_eq_getElem hj, Option.some.injEq] at h2
  rw [h1, h2]
  have : (1 : K) < n := by exact_mod_cast (by omega : 1 < n)
  have hpos : 0 < (1 - 0 : K) / (n - 1) := div_pos (by norm_num) (by linarith)
  have hc : (i : K) < j := by exact_mod_cast hij
  have := mul_lt_mul_of_pos_right hc hpos
  linarith

/-- C92: the same for curves that cross at parameters of their own, given for each curve. -/
theorem C92_contains_each {eps meps : K} (heps : 0 < eps) (hm : 0 ≤ meps) (growth junk : K) {P Q : ℕ} (hP : 1 ≤ P) (hQ : 1 ≤ Q) (slope : Bool)
    (hdP : 2 * (P + slope.toNat) - 1 ≤ stackMaxDegree) (hdQ : 2 * (Q + slope.toNat) - 1 ≤ stackMaxDegree)
    {sparse : ℕ → List (ℕ × ℕ × K) → List K → R (List K)} (hS : Spec.SolvesRegular sparse) {isoKsi isoEth : List (LatticeCurve K V)}
    {ksi eth : List (List K)} {nKsi nEth : List ℕ} {round : K → ℕ} {sk se : ℕ} (hk2 : 2 ≤ isoKsi.length) (he2 : 2 ≤ isoEth.length)
    (lk : eth.length = isoKsi.length) (le : ksi.length = isoEth.length) (hle : ∀ e ∈ eth, e.length = isoEth.length)
    (hlk : ∀ k ∈ ksi, k.length = isoKsi.length) (hse : ∀ e ∈ eth, e.Pairwise (· ≤ ·)) (hsk : ∀ k ∈ ksi, k.Pairwise (· ≤ ·))
    (zk : setSizesNL round isoKsi eth sk = .ok nKsi) (ze : setSizesNL round isoEth ksi se = .ok nEth) {pk pe : ℕ → List K}
    (ek : ∀ (i : ℕ) (c : LatticeCurve K V) (e : List K), isoKsi[i]? = some c → eth[i]? = some e → segParams c nKsi e = .ok (pk i))
    (ee : ∀ (j : ℕ) (c : LatticeCurve K V) (k : List K), isoEth[j]? = some c → ksi[j]? = some k → segParams c nEth k = .ok (pe j))
    (vk : ∀ (i : ℕ) (c : LatticeCurve K V) (e : List K), isoKsi[i]? = some c → eth[i]? = some e → ∀ t, kf e 0 ≤ t → t ≤ kf e (e.length - 1) →
      ∀ n, n < P → ∃ x, c.val t n = .ok x)
    (ve : ∀ (j : ℕ) (c : LatticeCurve K V) (k : List K), isoEth[j]? = some c → ksi[j]? = some k → ∀ t, kf k 0 ≤ t → t ≤ kf k (k.length - 1) →
      ∀ n, n < Q → ∃ x, c.val t n = .ok x)
    (hmeet : ∀ (i j : ℕ) (c d : LatticeCurve K V) (k e : List K) (a b : K), isoKsi[i]? = some c → isoEth[j]? = some d → ksi[j]? = some k →
      k[i]? = some a → eth[i]? = some e → e[j]? = some b → d.val a 0 = c.val b 0) :
    ∃ pts, tfiMeshCurvesL eps meps growth junk sparse round P Q slope isoKsi isoEth ksi eth sk se =
        .ok (pts, Spec.nodeIndex nKsi nKsi.length + 1, Spec.nodeIndex nEth nEth.length + 1, nKsi, nEth) ∧
      Spec.MeshHas isoKsi isoEth pk pe nKsi nEth pts := by
  have sizes : ∀ {crvs : List (LatticeCurve K V)} {us : List (List K)} {n : ℕ} {r : List ℕ} {N : ℕ}, 2 ≤ N → 0 < us.length →
      (∀ u ∈ us, u.length = N) → setSizesNL round crvs us n = .ok r → r.length + 1 = N := by
    intro crvs us n r N hN h0 hu h
    unfold setSizesNL at h
    obtain ⟨_, -, h⟩ := R_bind_eq_ok.mp h
    obtain ⟨_, -, h⟩ := R_bind_eq_ok.mp h
    obtain ⟨_, -, h⟩ := R_bind_eq_ok.mp h
    obtain ⟨_, -, h⟩ := R_bind_eq_ok.mp h
    unfold setSizesL at h
    split at h
    · cases h
    · split at h
      · cases h
      · rw [rd_ok h0, R_bind_ok] at h
        split at h
        · cases h
        · rw [hu _ (List.getElem_mem _), usub_ok (by omega), R_bind_ok] at h
          rw [(mapM_range_inv h).1]
          omega
  have lnk := sizes he2 (by omega) hle zk
  have lne := sizes hk2 (by omega) hlk ze
  have params : ∀ {crvs : List (LatticeCurve K V)} {nui : List ℕ} {us : List (List K)} {q : ℕ → List K}, us.length = crvs.length →
      (∀ (i : ℕ) (c : LatticeCurve K V) (u : List K), crvs[i]? = some c → us[i]? = some u → segParams c nui u = .ok (q i)) →
      (List.range crvs.length).mapM (fun i => do
        let c ← rd crvs i
        let u ← rd us i
        segParams c nui u) = .ok ((List.range crvs.length).map q) := by
    intro crvs nui us q hl h
    apply mapM_ok
    intro i hi
    have hi := List.mem_range.mp hi
    rw [rd_ok hi, R_bind_ok, rd_ok (by omega), R_bind_ok]
    exact h i _ _ (List.getElem?_eq_getElem hi) (List.getElem?_eq_getElem (by omega))
  have qk : ∀ i (hi : i < isoKsi.length), _ := fun i hi =>
    C92_params (by rw [hle eth[i] (List.getElem_mem _)]; exact lnk) (by rw [hle eth[i] (List.getElem_mem _)]; exact he2)
      (hse eth[i] (List.getElem_mem _)) (ek i _ _ (List.getElem?_eq_getElem hi) (List.getElem?_eq_getElem (by omega)))
  have qe : ∀ i (hi : i < isoEth.length), _ := fun i hi =>
    C92_params (by rw [hlk ksi[i] (List.getElem_mem _)]; exact lne) (by rw [hlk ksi[i] (List.getElem_mem _)]; exact hk2)
      (hsk ksi[i] (List.getElem_mem _)) (ee i _ _ (List.getElem?_eq_getElem hi) (List.getElem?_eq_getElem (by omega)))
  have inBounds : ∀ {Z : List K}, Z.Pairwise (· ≤ ·) → ∀ t ∈ Z, kf Z 0 ≤ t ∧ t ≤ kf Z (Z.length - 1) := by
    intro Z hZ q hq
    obtain ⟨a, ha⟩ := List.getElem?_of_mem hq
    obtain ⟨h1, h2⟩ := kf_of_some ha
    rw [← h2]
    exact ⟨kf_mono hZ (Nat.zero_le a), kf_mono hZ (by omega)⟩
  obtain ⟨Xke, xy, eXY, hxy, hcr⟩ := crossingsL_spec hP hQ rfl rfl lk le hle hlk
    (fun i c e hc he t ht n hn => by
      have := inBounds (hse e (List.mem_of_getElem? he)) t ht
      exact vk i c e hc he t this.1 this.2 n hn)
    (fun i c e hc he t ht n hn => by
      have := inBounds (hsk e (List.mem_of_getElem? he)) t ht
      exact ve i c e hc he t this.1 this.2 n hn) hmeet
  obtain ⟨ks, eks, lks, hks⟩ := makeRange_lt (K := K) hk2
  obtain ⟨es, ees, les, hes⟩ := makeRange_lt (K := K) he2
  have getk : ∀ i p, ((List.range isoKsi.length).map pk)[i]? = some p → i < isoKsi.length ∧ p = pk i := by
    intro i p h
    have hi : i < isoKsi.length := by simpa using (List.getElem?_eq_some_iff.mp h).1
    rw [List.getElem?_map, List.getElem?_range hi] at h
    exact ⟨hi, by cases h; rfl⟩
  have gete : ∀ i p, ((List.range isoEth.length).map pe)[i]? = some p → i < isoEth.length ∧ p = pe i := by
    intro i p h
    have hi : i < isoEth.length := by simpa using (List.getElem?_eq_some_iff.mp h).1
    rw [List.getElem?_map, List.getElem?_range hi] at h
    exact ⟨hi, by cases h; rfl⟩
  obtain ⟨X, Y, f, g, pts, eX, eY, ef, eg, ep, lX, lY, h1, h2, h3⟩ := networkMesh heps hm growth junk hP hQ slope hdP hdQ hS
    (pk := (List.range isoKsi.length).map pk) (pe := (List.range isoEth.length).map pe) hks hes lks.symm les.symm (by omega) (by omega)
    (by rw [les]; exact lnk) (by rw [lks]; exact lne)
    (qk 0 (by omega)).1 (qe 0 (by omega)).1 (by simp) (by simp)
    (by
      intro p hp
      obtain ⟨i, hi, rfl⟩ := List.mem_map.mp hp
      exact (qk i (List.mem_range.mp hi)).2.1)
    (by
      intro p hp
      obtain ⟨i, hi, rfl⟩ := List.mem_map.mp hp
      exact (qe i (List.mem_range.mp hi)).2.1)
    (by
      intro i c p hc hp t ht n hn
      obtain ⟨hi, rfl⟩ := getk i p hp
      have := (qk i hi).2.2.2 t ht
      exact vk i c _ hc (List.getElem?_eq_getElem (by omega)) t this.1 this.2 n hn)
    (by
      intro i c p hc hp t ht n hn
      obtain ⟨hi, rfl⟩ := gete i p hp
      have := (qe i hi).2.2.2 t ht
      exact ve i c _ hc (List.getElem?_eq_getElem (by omega)) t this.1 this.2 n hn)
    (fun i j n m hi hj => hxy i j n m (by omega) (by omega))
    (by
      intro k j m c p t hk hm' hc hp ht
      obtain ⟨hj, rfl⟩ := gete j p hp
      rw [(qe j hj).2.2.1 k (by rw [hlk _ (List.getElem_mem _)]; omega)] at ht
      have hke : j < eth[k].length := by rw [hle _ (List.getElem_mem _)]; omega
      exact (hcr k j _ c _ _ t _ (List.getElem?_eq_getElem (by omega)) hc (List.getElem?_eq_getElem (by omega)) ht
        (List.getElem?_eq_getElem (by omega)) (List.getElem?_eq_getElem hke)).2 m hm')
    (by
      intro l i n c p t hl hn hc hp ht
      obtain ⟨hi, rfl⟩ := getk i p hp
      rw [(qk i hi).2.2.1 l (by rw [hle _ (List.getElem_mem _)]; omega)] at ht
      have hke : i < ksi[l].length := by rw [hlk _ (List.getElem_mem _)]; omega
      exact (hcr i l c _ _ _ _ t hc (List.getElem?_eq_getElem (by omega)) (List.getElem?_eq_getElem (by omega)) (List.getElem?_eq_getElem hke)
        (List.getElem?_eq_getElem (by omega)) ht).1 n hn)
  have setL : ∀ {P : ℕ} {crvs : List (LatticeCurve K V)} {nui : List ℕ} {us : List (List K)} {q : ℕ → List K} {N : ℕ}, 0 < us.length →
      (∀ u ∈ us, u.length = N) → nui.length + 1 = N →
      (List.range crvs.length).mapM (fun i => do
        let c ← rd crvs i
        let u ← rd us i
        segParams c nui u) = .ok ((List.range crvs.length).map q) →
      mshCurvesSetL P crvs nui us = setNodes P crvs ((List.range crvs.length).map q) := by
    intro P crvs nui us q N h0 hN hl h
    cases us with
    | nil => simp at h0
    | cons u0 us =>
      unfold mshCurvesSetL
      dsimp only
      have hu0 := hN u0 (by simp)
      rw [if_neg (by omega), if_neg, h, R_bind_ok]
      rw [Bool.not_eq_true, List.any_eq_false]
      intro u hu
      rw [hu0, hN u hu]
      simp
  refine ⟨pts, ?_, h1, ?_, ?_⟩
  · unfold tfiMeshCurvesL mshCurvesLatticeL
    have k0 : rd ksi 0 = .ok ksi[0] := rd_ok (by omega)
    have e0 : rd eth 0 = .ok eth[0] := rd_ok (by omega)
    have lk0 : ksi[0].length = isoKsi.length := hlk _ (List.getElem_mem _)
    have le0 : eth[0].length = isoEth.length := hle _ (List.getElem_mem _)
    rw [ze, R_bind_ok, zk, R_bind_ok, setL (by omega) hle lnk (params lk ek), setL (by omega) hlk lne (params le ee)]
    simp only [eX, eY, R_bind_ok, k0, e0, lk0, le0]
    rw [if_neg (by omega), eXY, R_bind_ok, lne, lnk, eks, ees, lk, le]
    simp only [R_bind_ok, R_pure, ef, eg, eks, ees, ep, lX, lY]
  · intro k c j' t hc ht
    have hk : k < isoKsi.length := (List.getElem?_eq_some_iff.mp hc).1
    exact h2 k c (pk k) j' t hc (by rw [List.getElem?_map, List.getElem?_range hk]; rfl) ht
  · intro l c i' t hc ht
    have hl : l < isoEth.length := (List.getElem?_eq_some_iff.mp hc).1
    exact h3 l c (pe l) i' t hc (by rw [List.getElem?_map, List.getElem?_range hl]; rfl) ht

/-- C92: a segment with less than two nodes is never meshed: the parameters of a curve that has one are not computed. -/
theorem C92_short_segment {c : LatticeCurve K V} {nui : List ℕ} {u : List K} (hl : nui.length + 1 = u.length) (hn : 2 ≤ u.length)
    (hu : u.Pairwise (· ≤ ·)) {n : ℕ} (h : n ∈ nui) (h2 : n < 2) (p : List K) : segParams c nui u ≠ .ok p := by
  intro he
  have := (C92_params hl hn hu he).1 n h
  omega

/-- C92: a segment gets two nodes or more exactly when the mean length of the curves on it, divided by the step, is not rounded to zero. -/
theorem C92_sizes {round : K → ℕ} {crvs : List (LatticeCurve K V)} {u : List K} {dm : K} {r : List ℕ} (h : setSizes round crvs u dm = .ok r) :
    r.length + 1 = u.length ∧ ∀ (i n : ℕ), r[i]? = some n → ∃ u1 u2 ls, u[i]? = some u1 ∧ u[i + 1]? = some u2 ∧
      crvs.mapM (fun c => c.len u1 u2) = .ok ls ∧ (2 ≤ n ↔ round (ls.sum / (crvs.length : K) / dm) ≠ 0) := by
  unfold setSizes at h
  obtain ⟨m, hm, h⟩ := R_bind_eq_ok.mp h
  obtain ⟨h1, rfl⟩ := usub_eq_ok.mp hm
  obtain ⟨r1, r2⟩ := mapM_range_inv h
  refine ⟨by omega, ?_⟩
  intro i n hn
  obtain ⟨y, hy, hr⟩ := r2 i (by rw [← r1]; exact (List.getElem?_eq_some_iff.mp hn).1)
  rw [hn] at hr
  cases hr
  obtain ⟨u1, e1, hy⟩ := R_bind_eq_ok.mp hy
  obtain ⟨u2, e2, hy⟩ := R_bind_eq_ok.mp hy
  obtain ⟨ls, e3, hy⟩ := R_bind_eq_ok.mp hy
  obtain ⟨l, e4, hy⟩ := R_bind_eq_ok.mp hy
  obtain ⟨q, e5, hy⟩ := R_bind_eq_ok.mp hy
  refine ⟨u1, u2, ls, rd_eq_ok.mp e1, rd_eq_ok.mp e2, e3, ?_⟩
  have el : l = ls.sum / (crvs.length : K) := by
    unfold fdiv at e4
    split at e4
    · cases e4
    · exact (Except.ok.inj e4).symm
  have eq : q = l / dm := by
    unfold fdiv at e5
    split at e5
    · cases e5
    · exact (Except.ok.inj e5).symm
  rw [R_pure_eq_ok] at hy
  rw [← el, ← eq, ← hy]
  omega

/-- The vertical line `x = a`. -/
def tfiVert (a : ℚ) : LatticeCurve ℚ (ℚ × ℚ) where
  b0 := 0
  b1 := 1
  val t n := .ok (if n = 0 then (a, t) else if n = 1 then (0, 1) else 0)
  len u1 u2 := .ok (u2 - u1)
  law u1 u2 := .ok (u2 - u1, fun m => .ok (u1 + m))

/-- The horizontal line `y = b`. -/
def tfiHor (b : ℚ) : LatticeCurve ℚ (ℚ × ℚ) where
  b0 := 0
  b1 := 1
  val t n := .ok (if n = 0 then (t, b) else if n = 1 then (1, 0) else 0)
  len u1 u2 := .ok (u2 - u1)
  law u1 u2 := .ok (u2 - u1, fun m => .ok (u1 + m))

/-- `std::round` on positive numbers. -/
def tfiRound (q : ℚ) : ℕ := (q + 1 / 2).floor.toNat

theorem vert_get {as : List ℚ} {i : ℕ} {c : LatticeCurve ℚ (ℚ × ℚ)} (h : (as.map tfiVert)[i]? = some c) : ∃ a, as[i]? = some a ∧ c = tfiVert a := by
  rw [List.getElem?_map, Option.map_eq_some_iff] at h
  obtain ⟨a, h1, h2⟩ := h
  exact ⟨a, h1, h2.symm⟩

theorem hor_get {as : List ℚ} {i : ℕ} {c : LatticeCurve ℚ (ℚ × ℚ)} (h : (as.map tfiHor)[i]? = some c) : ∃ a, as[i]? = some a ∧ c = tfiHor a := by
  rw [List.getElem?_map, Option.map_eq_some_iff] at h
  obtain ⟨a, h1, h2⟩ := h
  exact ⟨a, h1, h2.symm⟩

/-- Non-vacuity of `C92_contains`: three vertical lines and two horizontal ones, 5 nodes by 3. -/
example : ∃ (sparse : ℕ → List (ℕ × ℕ × ℚ) → List ℚ → R (List ℚ)) (pts : List (ℚ × ℚ)),
    tfiMeshCurves (1 / 1000) 0 1 0 sparse tfiRound 1 1 true ([0, 1 / 2, 1].map tfiVert) ([0, 1].map tfiHor) [0, 1 / 2, 1] [0, 1] 3 5 none =
      .ok (pts, 3, 5, [3], [3, 3]) ∧ pts.length = 15 ∧ pts[7]? = some (1 / 2, 1 / 2) ∧ pts[5]? = some (1 / 4, 1) := by
  obtain ⟨sparse, hS⟩ := exists_solvesRegular (K := ℚ) (V := ℚ)
  obtain ⟨pts, e, h1, h2, h3⟩ := C92_contains (eps := 1 / 1000) (meps := 0) (by norm_num) (le_refl _) 1 0 (P := 1) (Q := 1) (by omega) (by omega) true
    (by decide) (by decide) hS (isoKsi := [0, 1 / 2, 1].map tfiVert) (isoEth := [0, 1].map tfiHor) (ksi := [0, 1 / 2, 1]) (eth := [0, 1])
    (nKsi := [3]) (nEth := [3, 3]) (srf := none) (round := tfiRound) (sk := 3) (se := 5) (by decide +kernel) (by decide +kernel) (by decide) (by decide) rfl rfl
    (by simp [tfiVert]) (by simp [tfiHor]) (by decide +kernel) (by decide +kernel) (pk := fun _ => [0, 1 / 2, 1])
    (pe := fun _ => [0, 1 / 4, 1 / 2, 3 / 4, 1])
    (by
      intro i c hc
      obtain ⟨a, -, rfl⟩ := vert_get hc
      change segParams (tfiVert 0) _ _ = _
      decide +kernel)
    (by
      intro i c hc
      obtain ⟨a, -, rfl⟩ := hor_get hc
      change segParams (tfiHor 0) _ _ = _
      decide +kernel)
    (by
      intro c hc t _ _ n _
      obtain ⟨a, -, rfl⟩ := List.mem_map.mp hc
      exact ⟨_, rfl⟩)
    (by
      intro c hc t _ _ n _
      obtain ⟨a, -, rfl⟩ := List.mem_map.mp hc
      exact ⟨_, rfl⟩)
    (by
      intro i j c d a b hc hd ha hb
      obtain ⟨a', h, rfl⟩ := vert_get hc
      obtain ⟨b', h', rfl⟩ := hor_get hd
      rw [h] at ha; cases ha
      rw [h'] at hb; cases hb
      rfl)
    (by intro s hs; cases hs)
  refine ⟨sparse, pts, e, h1, ?_, ?_⟩
  · obtain ⟨x, hx, hp⟩ := h2 1 (tfiVert (1 / 2)) 1 (1 / 2) rfl rfl
    cases hx
    exact hp
  · obtain ⟨x, hx, hp⟩ := h3 1 (tfiHor 1) 1 (1 / 4) rfl rfl
    cases hx
    exact hp

/-- Non-vacuity of `C92_contains_each`: the same lines, with the parameters of the crossings on each. -/
example : ∃ (sparse : ℕ → List (ℕ × ℕ × ℚ) → List ℚ → R (List ℚ)) (pts : List (ℚ × ℚ)),
    tfiMeshCurvesL (1 / 1000) 0 1 0 sparse tfiRound 2 1 false ([0, 1 / 2, 1].map tfiVert) ([0, 1].map tfiHor) [[0, 1 / 2, 1], [0, 1 / 2, 1]]
      [[0, 1], [0, 1], [0, 1]] 3 5 = .ok (pts, 3, 5, [3], [3, 3]) ∧ pts.length = 15 ∧ pts[7]? = some (1 / 2, 1 / 2) ∧ pts[5]? = some (1 / 4, 1) := by
  obtain ⟨sparse, hS⟩ := exists_solvesRegular (K := ℚ) (V := ℚ)
  have ge : ∀ {i : ℕ} {e : List ℚ}, ([[0, 1], [0, 1], [0, 1]] : List (List ℚ))[i]? = some e → e = [0, 1] := by
    intro i e h
    simpa using List.mem_of_getElem? h
  have gk : ∀ {i : ℕ} {e : List ℚ}, ([[0, 1 / 2, 1], [0, 1 / 2, 1]] : List (List ℚ))[i]? = some e → e = [0, 1 / 2, 1] := by
    intro i e h
    simpa using List.mem_of_getElem? h
  obtain ⟨pts, e, h1, h2, h3⟩ := C92_contains_each (eps := 1 / 1000) (meps := 0) (by norm_num) (le_refl _) 1 0 (P := 2) (Q := 1) (by omega) (by omega) false
    (by decide) (by decide) hS (isoKsi := [0, 1 / 2, 1].map tfiVert) (isoEth := [0, 1].map tfiHor) (ksi := [[0, 1 / 2, 1], [0, 1 / 2, 1]])
    (eth := [[0, 1], [0, 1], [0, 1]])
    (nKsi := [3]) (nEth := [3, 3]) (round := tfiRound) (sk := 3) (se := 5) (by decide) (by decide) rfl rfl (by decide +kernel) (by decide +kernel)
    (by decide +kernel) (by decide +kernel) (by decide +kernel) (by decide +kernel) (pk := fun _ => [0, 1 / 2, 1])
    (pe := fun _ => [0, 1 / 4, 1 / 2, 3 / 4, 1])
    (by
      intro i c e hc he
      obtain ⟨a, -, rfl⟩ := vert_get hc
      rw [ge he]
      change segParams (tfiVert 0) _ _ = _
      decide +kernel)
    (by
      intro i c e hc he
      obtain ⟨a, -, rfl⟩ := hor_get hc
      rw [gk he]
      change segParams (tfiHor 0) _ _ = _
      decide +kernel)
    (by
      intro i c e hc _ t _ _ n _
      obtain ⟨a, -, rfl⟩ := vert_get hc
      exact ⟨_, rfl⟩)
    (by
      intro i c e hc _ t _ _ n _
      obtain ⟨a, -, rfl⟩ := hor_get hc
      exact ⟨_, rfl⟩)
    (by
      intro i j c d k e a b hc hd hk ha he hb
      obtain ⟨a', h, rfl⟩ := vert_get hc
      obtain ⟨b', h', rfl⟩ := hor_get hd
      rw [gk hk, h] at ha; cases ha
      rw [ge he, h'] at hb; cases hb
      rfl)
  refine ⟨sparse, pts, e, h1, ?_, ?_⟩
  · obtain ⟨x, hx, hp⟩ := h2 1 (tfiVert (1 / 2)) 1 (1 / 2) rfl rfl
    cases hx
    exact hp
  · obtain ⟨x, hx, hp⟩ := h3 1 (tfiHor 1) 1 (1 / 4) rfl rfl
    cases hx
    exact hp

/-- C92: the mesh does not exist for every lattice. A line of the network nearer to the next one than half the step asked for leaves a segment with
one node, and `uniform_distrib_params` then writes beyond the list. -/
theorem C92_short_segment_witness (sparse : ℕ → List (ℕ × ℕ × ℚ) → List ℚ → R (List ℚ)) :
    tfiMeshCurves (1 / 1000) 0 1 0 sparse tfiRound 1 1 true ([0, 1 / 10, 1].map tfiVert) ([0, 1].map tfiHor) [0, 1 / 10, 1] [0, 1] 3 5 none =
      .error .oob := by
  have e1 : setSizesN tfiRound ([0, 1].map tfiHor) [0, 1 / 10, 1] 5 = .ok [1, 5] := by decide +kernel
  have e2 : setSizesN tfiRound ([0, 1 / 10, 1].map tfiVert) [0, 1] 3 = .ok [3] := by decide +kernel
  have e3 : (mshCurvesSet (1 / 1000) 1 ([0, 1 / 10, 1].map tfiVert) [3] [0, 1]).isOk = true := by decide +kernel
  have e4 : mshCurvesSet (1 / 1000) 1 ([0, 1].map tfiHor) [1, 5] [0, 1 / 10, 1] = .error .oob := by decide +kernel
  unfold tfiMeshCurves mshCurvesLattice
  rw [e1, R_bind_ok, e2, R_bind_ok, e4]
  generalize mshCurvesSet (1 / 1000) 1 ([0, 1 / 10, 1].map tfiVert) [3] [0, 1] = X at e3 ⊢
  cases X with
  | error x => simp [Except.isOk, Except.toBool] at e3
  | ok X => rfl

/-- Non-vacuity of `C92_short_segment` and `C92_sizes`. -/
example : setSizes tfiRound [tfiVert 0] [0, 1 / 10, 1] (1 / 4) = .ok [1, 5] ∧ segParams (tfiVert 0) [1, 5] [0, 1 / 10, 1] = .error .oob := by
  decide +kernel

end Gbs
