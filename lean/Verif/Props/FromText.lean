import Verif.Model.FromText
import Verif.Lemmas.Tfi

/-!
# C113: points read from text files
-/

set_option linter.unusedVariables false

namespace Gbs

/-- White space of the "C" locale: space, tabulations, line feed, form feed, carriage return. -/
def Spec.White (x : Char) : Prop := x = ' ' ∨ x = '\t' ∨ x = '\n' ∨ x = '\x0b' ∨ x = '\x0c' ∨ x = '\r'

/-- A word: some characters, none of them white or the separator. -/
def Spec.Word (c : Char) (w : List Char) : Prop := w ≠ [] ∧ ∀ x ∈ w, ¬ Spec.White x ∧ x ≠ c

/-- A gap: white characters and separators. -/
def Spec.Gap (c : Char) (g : List Char) : Prop := ∀ x ∈ g, Spec.White x ∨ x = c

/-- The line made of a gap, then of words each followed by a gap. -/
def Spec.text (g : List Char) (l : List (List Char × List Char)) : List Char := g ++ l.flatMap fun x => x.1 ++ x.2

/-- The words are separated: each of the gaps but the last has a separator. -/
def Spec.Separated (c : Char) (l : List (List Char × List Char)) : Prop := (∀ x ∈ l, Spec.Word c x.1 ∧ Spec.Gap c x.2) ∧ ∀ x ∈ l.dropLast, c ∈ x.2

theorem isSpaceC_iff (x : Char) : isSpaceC x = true ↔ Spec.White x := by
  unfold isSpaceC Spec.White
  simp only [Bool.or_eq_true, beq_iff_eq, Bool.and_eq_true, decide_eq_true_eq]
  constructor
  · rintro (h | ⟨h1, h2⟩)
    · exact .inl h
    · right
      have : x.toNat = 9 ∨ x.toNat = 10 ∨ x.toNat = 11 ∨ x.toNat = 12 ∨ x.toNat = 13 := by omega
      have inj : ∀ y : Char, x.toNat = y.toNat → x = y := fun y h => Char.ext (UInt32.toNat_inj.mp h)
      rcases this with h | h | h | h | h
      · exact .inl (inj '\t' h)
      · exact .inr (.inl (inj '\n' h))
      · exact .inr (.inr (.inl (inj '\x0b' h)))
      · exact .inr (.inr (.inr (.inl (inj '\x0c' h))))
      · exact .inr (.inr (.inr (.inr (inj '\r' h))))
  · rintro (h | h | h | h | h | h)
    · exact .inl h
    all_goals (right; subst h; decide)

/-- What is emitted at the end of a field. -/
def emit (a : List Char) : List (List Char) := if a = [] then [] else [a]

/-- The fields, character by character: `a` is what is kept of the field so far. -/
def scanLine (c : Char) : List Char → List Char → List (List Char)
  | a, [] => emit a
  | a, x :: s => if x = c then emit a ++ scanLine c [] s else if isSpaceC x then scanLine c a s else scanLine c (a ++ [x]) s

theorem findCut_none {c : Char} : ∀ {s : List Char}, findCut c s = none ↔ c ∉ s
  | [] => by simp [findCut]
  | x :: s => by
    unfold findCut
    split
    · next h => simp [h]
    · next h =>
      rw [Option.map_eq_none_iff, findCut_none]
      simp only [List.mem_cons, not_or]
      exact ⟨fun h' => ⟨fun e => h e.symm, h'⟩, fun h' => h'.2⟩

theorem findCut_some {c : Char} : ∀ {s a b : List Char}, findCut c s = some (a, b) → s = a ++ c :: b ∧ c ∉ a
  | [], _, _, h => by cases h
  | x :: s, a, b, h => by
    unfold findCut at h
    split at h
    · next hx =>
      cases h
      simp [hx]
    · next hx =>
      obtain ⟨r, h1, h2⟩ := Option.map_eq_some_iff.mp h
      cases h2
      obtain ⟨h3, h4⟩ := findCut_some (a := r.1) (b := r.2) h1
      refine ⟨by rw [h3]; rfl, ?_⟩
      simp only [List.mem_cons, not_or]
      exact ⟨fun e => hx e.symm, h4⟩

theorem scan_no_sep {c : Char} : ∀ {s : List Char} (a t : List Char), c ∉ s → scanLine c a (s ++ t) = scanLine c (a ++ s.filter fun x => !isSpaceC x) t
  | [], a, t, _ => by simp
  | x :: s, a, t, h => by
    simp only [List.mem_cons, not_or] at h
    have hx : ¬ x = c := fun e => h.1 e.symm
    rw [List.cons_append, scanLine, if_neg hx]
    by_cases hw : isSpaceC x = true
    · rw [if_pos hw, scan_no_sep a t h.2]
      simp [hw]
    · rw [if_neg hw, scan_no_sep _ t h.2]
      simp [hw]

theorem emit_clean (w : List Char) (r : List (List Char)) :
    ((w :: r).map fun w => w.filter fun x => !isSpaceC x).filter (fun w => !w.isEmpty) =
      emit (w.filter fun x => !isSpaceC x) ++ (r.map fun w => w.filter fun x => !isSpaceC x).filter fun w => !w.isEmpty := by
  rw [List.map_cons]
  by_cases h : (w.filter fun x => !isSpaceC x) = []
  · rw [emit, if_pos h, List.nil_append, List.filter_cons_of_neg]
    simp [h]
  · rw [emit, if_neg h, List.filter_cons_of_pos]
    · rfl
    · simpa using h

theorem splitLine_scan (c : Char) : ∀ (m : ℕ) (s : List Char), s.length ≤ m → c ∈ s → splitLine s c = scanLine c [] s := by
  intro m
  induction m with
  | zero =>
    intro s hs hc
    have : s = [] := List.eq_nil_of_length_eq_zero (by omega)
    rw [this] at hc
    simp at hc
  | succ m ih =>
    intro s hs hc
    unfold splitLine
    rw [splitLoop]
    split
    · next h => exact absurd hc (findCut_none.mp h)
    · next a b h =>
      have hlt := findCut_lt h
      obtain ⟨rfl, ha⟩ := findCut_some h
      rw [emit_clean, scan_no_sep [] (c :: b) ha, scanLine, if_pos rfl, List.nil_append]
      congr 1
      split
      · next hb =>
        have hb' := findCut_none.mp hb
        have := scan_no_sep (c := c) [] [] hb'
        rw [List.append_nil, List.nil_append] at this
        rw [this, scanLine, emit_clean]
        simp
      · next r hb =>
        have hb' : c ∈ b := by
          by_contra h'
          rw [findCut_none.mpr h'] at hb
          cases hb
        have hlen : b.length ≤ m := by omega
        rw [← ih b hlen hb']
        rfl

theorem splitLine_none {c : Char} {s : List Char} (h : c ∉ s) : splitLine s c = [] := by
  unfold splitLine
  rw [splitLoop]
  split
  · rfl
  · next a b h' =>
    rw [findCut_none.mpr h] at h'
    cases h'

theorem scan_gap {c : Char} : ∀ {g : List Char} (t : List Char), Spec.Gap c g → scanLine c [] (g ++ t) = scanLine c [] t
  | [], t, _ => rfl
  | x :: g, t, h => by
    have hg : Spec.Gap c g := fun y hy => h y (by simp [hy])
    rw [List.cons_append, scanLine]
    by_cases hx : x = c
    · rw [if_pos hx, scan_gap t hg]
      simp [emit]
    · rw [if_neg hx, if_pos ((isSpaceC_iff x).mpr ((h x (by simp)).resolve_right hx)), scan_gap t hg]

theorem scan_gap_sep {c : Char} : ∀ {g : List Char} (a t : List Char), Spec.Gap c g → c ∈ g → scanLine c a (g ++ t) = emit a ++ scanLine c [] t
  | [], _, _, _, h => by simp at h
  | x :: g, a, t, h, hc => by
    have hg : Spec.Gap c g := fun y hy => h y (by simp [hy])
    rw [List.cons_append, scanLine]
    by_cases hx : x = c
    · rw [if_pos hx, scan_gap t hg]
    · rw [if_neg hx, if_pos ((isSpaceC_iff x).mpr ((h x (by simp)).resolve_right hx))]
      refine scan_gap_sep a t hg ?_
      rcases List.mem_cons.mp hc with e | e
      · exact absurd e.symm hx
      · exact e

theorem scan_gap_end {c : Char} : ∀ {g : List Char} (a : List Char), Spec.Gap c g → scanLine c a g = emit a
  | [], a, _ => rfl
  | x :: g, a, h => by
    have hg : Spec.Gap c g := fun y hy => h y (by simp [hy])
    rw [scanLine]
    by_cases hx : x = c
    · rw [if_pos hx, scan_gap_end [] hg]
      simp [emit]
    · rw [if_neg hx, if_pos ((isSpaceC_iff x).mpr ((h x (by simp)).resolve_right hx)), scan_gap_end a hg]

theorem scan_word {c : Char} {w : List Char} (h : Spec.Word c w) (t : List Char) : scanLine c [] (w ++ t) = scanLine c w t := by
  rw [scan_no_sep [] t (fun hc => (h.2 c hc).2 rfl), List.nil_append]
  congr 1
  refine List.filter_eq_self.mpr fun x hx => ?_
  have := (h.2 x hx).1
  rw [← isSpaceC_iff] at this
  simpa using this

theorem scan_text {c : Char} : ∀ (l : List (List Char × List Char)), Spec.Separated c l → scanLine c [] (l.flatMap fun x => x.1 ++ x.2) = l.map Prod.fst
  | [], _ => by simp [scanLine, emit]
  | [x], h => by
    obtain ⟨h1, h2⟩ := h.1 x (by simp)
    have : ([x].flatMap fun x => x.1 ++ x.2) = x.1 ++ x.2 := by simp
    rw [this, scan_word h1, scan_gap_end _ h2, emit, if_neg h1.1]
    rfl
  | x :: y :: l, h => by
    obtain ⟨h1, h2⟩ := h.1 x (by simp)
    have h3 : c ∈ x.2 := h.2 x (by simp)
    have ih := scan_text (y :: l) ⟨fun z hz => h.1 z (by simp only [List.mem_cons] at hz ⊢; exact .inr hz), fun z hz => h.2 z (by
      rw [List.dropLast_cons_of_ne_nil (by simp)]
      exact List.mem_cons_of_mem _ hz)⟩
    rw [List.flatMap_cons, List.append_assoc, scan_word h1, scan_gap_sep _ _ h2 h3, ih, emit, if_neg h1.1]
    rfl

/-- **C113**: the words of a line are found, whatever the separators and the white space around them, when the line has a separator; a line without one has
no word. -/
theorem C113_split_partial {c : Char} {g : List Char} {l : List (List Char × List Char)} (hg : Spec.Gap c g) (hl : Spec.Separated c l) :
    (c ∈ Spec.text g l → splitLine (Spec.text g l) c = l.map Prod.fst) ∧ (c ∉ Spec.text g l → splitLine (Spec.text g l) c = []) := by
  refine ⟨fun h => ?_, splitLine_none⟩
  rw [splitLine_scan c _ _ le_rfl h]
  unfold Spec.text
  rw [scan_gap _ hg, scan_text l hl]

/-- **C113** (false of the code): white characters other than the separator do not separate: two numbers with a tabulation between them are read as one. -/
theorem C113_white_vanishes {c x : Char} (hx : Spec.White x) (hxc : x ≠ c) {v w z : List Char} (hv : Spec.Word c v) (hw : Spec.Word c w) (hz : Spec.Word c z) :
    splitLine (v ++ [x] ++ w ++ [c] ++ z) c = [v ++ w, z] := by
  have hf : ∀ {w}, Spec.Word c w → w.filter (fun x => !isSpaceC x) = w := fun h => List.filter_eq_self.mpr fun x hx => by
    have := (h.2 x hx).1
    rw [← isSpaceC_iff] at this
    simpa using this
  have hn : ∀ {w}, Spec.Word c w → c ∉ w := fun h hc => (h.2 c hc).2 rfl
  rw [splitLine_scan c _ _ le_rfl (by simp)]
  have e : v ++ [x] ++ w ++ [c] ++ z = (v ++ [x] ++ w) ++ (c :: z) := by simp
  rw [e, scan_no_sep [] (c :: z) (by
    simp only [List.mem_append, List.mem_singleton, not_or]
    exact ⟨⟨hn hv, fun h => hxc h.symm⟩, hn hw⟩), scanLine, if_pos rfl]
  have e2 := scan_word hz []
  rw [List.append_nil] at e2
  rw [e2, scanLine, List.filter_append, List.filter_append, hf hv, hf hw, List.nil_append]
  have : [x].filter (fun x => !isSpaceC x) = [] := by simp [(isSpaceC_iff x).mpr hx]
  rw [this, List.append_nil, emit, if_neg (by simp [hv.1]), emit, if_neg hz.1]
  rfl

variable {K : Type} [Zero K] {num : List Char → Option K} {dim : ℕ} {c : Char}

/-- The line has the coordinates of the point: as many words as the dimension, each read as the number, and a separator. -/
def Spec.Carries (num : List Char → Option K) (dim : ℕ) (c : Char) (line : List Char) (P : Fin dim → K) : Prop :=
  ∃ g l, Spec.Gap c g ∧ Spec.Separated c l ∧ line = Spec.text g l ∧ c ∈ line ∧ l.length = dim ∧
    ∀ (i : Fin dim) w, (l[(i : ℕ)]?).map Prod.fst = some w → num w = some (P i)

theorem readLine_carries {line : List Char} {P : Fin dim → K} (h : Spec.Carries num dim c line P) : readLine num dim c line = .ok P := by
  obtain ⟨g, l, hg, hl, rfl, hc, hd, hn⟩ := h
  unfold readLine
  rw [(C113_split_partial hg hl).1 hc]
  simp only [List.length_map, ne_eq, hd, not_true_eq_false, if_false]
  obtain ⟨xs, hxs⟩ := mapM_exists (f := readNum num) (l.map Prod.fst) (by
    intro w hw
    obtain ⟨i, hi⟩ := List.getElem?_of_mem hw
    have hlt : i < l.length := by
      have := (List.getElem?_eq_some_iff.mp hi).1
      simpa using this
    rw [List.getElem?_map] at hi
    have := hn ⟨i, hd ▸ hlt⟩ w hi
    exact ⟨_, by rw [readNum, this]; rfl⟩)
  rw [hxs, R_bind_ok, R_pure]
  congr 1
  funext i
  obtain ⟨h1, h2⟩ := mapM_inv hxs
  have hlt : (i : ℕ) < l.length := hd ▸ i.2
  have hi : (l.map Prod.fst)[(i : ℕ)]? = some (l[(i : ℕ)]).1 := by
    rw [List.getElem?_map, List.getElem?_eq_getElem hlt]
    rfl
  obtain ⟨y, h3, h4⟩ := h2 i _ hi
  rw [List.getElem?_map] at hi
  rw [readNum, hn i _ hi] at h3
  cases h3
  rw [List.getD_eq_getElem?_getD, h4]
  rfl

/-- **C113**: the lines after those skipped are read as points, one by one in order; the approximation gets exactly these points. -/
theorem C113_read_partial (lines : List (List Char)) (skip : ℕ) (P : List (Fin dim → K)) (hlen : P.length = lines.length - skip)
    (h : ∀ (i : ℕ) line x, lines[skip + i]? = some line → P[i]? = some x → Spec.Carries num dim c line x) :
    readPoints num dim (some lines) skip c = .ok P ∧
    ∀ (C : Type) (approx : List (Fin dim → K) → ℕ → R C) (p : ℕ), curveFromText approx num (some lines) p skip c = approx P p := by
  have e : readPoints num dim (some lines) skip c = .ok P := by
    show (lines.drop skip).mapM (readLine num dim c) = .ok P
    obtain ⟨r, hr⟩ := mapM_exists (f := readLine num dim c) (lines.drop skip) (by
      intro line hm
      obtain ⟨i, hi⟩ := List.getElem?_of_mem hm
      have hlt : i < P.length := by
        have := (List.getElem?_eq_some_iff.mp hi).1
        rw [List.length_drop] at this
        omega
      rw [List.getElem?_drop] at hi
      exact ⟨_, readLine_carries (h i line _ hi (List.getElem?_eq_getElem hlt))⟩)
    rw [hr]
    congr 1
    obtain ⟨h1, h2⟩ := mapM_inv hr
    rw [List.length_drop] at h1
    refine List.ext_getElem? fun i => ?_
    by_cases hi : i < P.length
    · have hlt : skip + i < lines.length := by omega
      have hx : (lines.drop skip)[i]? = some lines[skip + i] := by
        rw [List.getElem?_drop, List.getElem?_eq_getElem hlt]
      obtain ⟨y, h3, h4⟩ := h2 i _ hx
      rw [readLine_carries (h i _ _ (List.getElem?_eq_getElem hlt) (List.getElem?_eq_getElem hi))] at h3
      cases h3
      rw [h4, List.getElem?_eq_getElem hi]
    · rw [List.getElem?_eq_none (by omega), List.getElem?_eq_none (by omega)]
  refine ⟨e, fun C approx p => ?_⟩
  unfold curveFromText
  rw [e, R_bind_ok]

theorem readLine_cases (line : List Char) : (∃ P, readLine num dim c line = .ok P) ∨ readLine num dim c line = .error (.thrown .runtime) := by
  unfold readLine
  dsimp only
  split
  · exact .inr rfl
  · have : ∀ ws : List (List Char), (∃ xs, ws.mapM (readNum num) = .ok xs) ∨ ws.mapM (readNum num) = .error (.thrown .runtime) := by
      intro ws
      induction ws with
      | nil => exact .inl ⟨[], rfl⟩
      | cons w ws ih =>
        rw [List.mapM_cons, readNum]
        cases hw : num w with
        | none => exact .inr rfl
        | some x =>
          rcases ih with ⟨xs, hxs⟩ | hxs
          · exact .inl ⟨x :: xs, by rw [hxs]; rfl⟩
          · exact .inr (by rw [hxs]; rfl)
    rcases this (splitLine line c) with ⟨xs, hxs⟩ | hxs
    · exact .inl ⟨_, by rw [hxs]; rfl⟩
    · exact .inr (by rw [hxs]; rfl)

theorem readPoints_refused {lines : List (List Char)} {skip : ℕ} {line : List Char} (hm : line ∈ lines.drop skip)
    (h : readLine num dim c line = .error (.thrown .runtime)) : readPoints num dim (some lines) skip c = .error (.thrown .runtime) := by
  show (lines.drop skip).mapM (readLine num dim c) = _
  generalize lines.drop skip = l at hm
  induction l with
  | nil => cases hm
  | cons a l ih =>
    rw [List.mapM_cons]
    rcases readLine_cases (num := num) (dim := dim) (c := c) a with ⟨P, hP⟩ | hP
    · rw [hP, R_bind_ok]
      rcases List.mem_cons.mp hm with rfl | hm
      · rw [hP] at h
        cases h
      · rw [ih hm]
        rfl
    · rw [hP]
      rfl

/-- **C113**: a file with a line whose number of words is not the dimension, or with a word that is not a number, is refused, and so is one that cannot be
opened; nothing else than a list of points or this exception comes out. -/
theorem C113_refused {lines : List (List Char)} {skip : ℕ} :
    (∀ g l, Spec.Gap c g → Spec.Separated c l → Spec.text g l ∈ lines.drop skip → (l.length ≠ dim ∨ ∃ x ∈ l, num x.1 = none) → 0 < dim →
      readPoints num dim (some lines) skip c = .error (.thrown .runtime)) ∧
    readPoints num dim none skip c = .error (.thrown .runtime) ∧
    ((∃ P, readPoints num dim (some lines) skip c = .ok P ∧ P.length = lines.length - skip) ∨ readPoints num dim (some lines) skip c = .error (.thrown .runtime)) := by
  refine ⟨fun g l hg hl hm h hd => ?_, rfl, ?_⟩
  · refine readPoints_refused hm ?_
    by_cases hc : c ∈ Spec.text g l
    · have e := (C113_split_partial hg hl).1 hc
      unfold readLine
      rw [e]
      dsimp only
      rw [List.length_map]
      split
      · rfl
      · next hlen =>
        obtain ⟨x, hx, hx'⟩ := h.resolve_left hlen
        have : ∀ ws : List (List Char), x.1 ∈ ws → ws.mapM (readNum num) = .error (.thrown .runtime) := by
          intro ws
          induction ws with
          | nil => intro h; cases h
          | cons w ws ih =>
            intro hmem
            rw [List.mapM_cons, readNum]
            cases hw : num w with
            | none => rfl
            | some y =>
              rcases List.mem_cons.mp hmem with e' | e'
              · rw [← e', hx'] at hw
                cases hw
              · rw [ih e']
                rfl
        rw [this _ (List.mem_map.mpr ⟨x, hx, rfl⟩)]
        rfl
    · unfold readLine
      rw [splitLine_none hc]
      dsimp only
      rw [if_pos (by simp; omega)]
  · by_cases h : ∃ line ∈ lines.drop skip, readLine num dim c line = .error (.thrown .runtime)
    · obtain ⟨line, hm, h⟩ := h
      exact .inr (readPoints_refused hm h)
    · left
      push Not at h
      obtain ⟨r, hr⟩ := mapM_exists (f := readLine num dim c) (lines.drop skip) fun line hm => (readLine_cases line).resolve_right (h line hm)
      exact ⟨r, hr, by rw [(mapM_inv hr).1, List.length_drop]⟩

/-- **C113** (false of the code): a file of numbers, one on each line, cannot be read as points of dimension 1. -/
theorem C113_one_column {lines : List (List Char)} {skip : ℕ} {w : List Char} (hw : Spec.Word c w) (hm : w ∈ lines.drop skip) :
    readPoints num 1 (some lines) skip c = .error (.thrown .runtime) := by
  refine readPoints_refused hm ?_
  unfold readLine
  rw [splitLine_none fun hc => (hw.2 c hc).2 rfl]
  rfl

/-! ## The hypotheses can be met -/

section witnesses

theorem word_digit {w : List Char} (hn : w ≠ []) (h : ∀ x ∈ w, x.isDigit = true) : Spec.Word ' ' w := by
  refine ⟨hn, fun x hx => ⟨?_, ?_⟩⟩
  · rintro (e | e | e | e | e | e) <;> · rw [e] at hx; exact absurd (h _ hx) (by decide)
  · rintro rfl
    exact absurd (h _ hx) (by decide)

/-- A reader of digits. -/
def digits (w : List Char) : Option ℤ := if w.all Char.isDigit then some (w.foldl (fun n x => 10 * n + (x.toNat - 48 : ℤ)) 0) else none

example : splitLine "  12  7 \t".toList ' ' = ["12".toList, "7".toList] := by
  refine (C113_split_partial (c := ' ') (g := "  ".toList) (l := [("12".toList, "  ".toList), ("7".toList, " \t".toList)]) ?_ ⟨?_, ?_⟩).1 (by decide)
  · intro x hx
    exact .inr (by simpa using hx)
  · intro x hx
    simp only [List.mem_cons, List.not_mem_nil, or_false] at hx
    rcases hx with rfl | rfl
    · exact ⟨word_digit (by decide) (by decide), fun x hx => .inr (by simpa using hx)⟩
    · refine ⟨word_digit (by decide) (by decide), fun x hx => .inl ?_⟩
      have : x = ' ' ∨ x = '\t' := by simpa using hx
      rcases this with rfl | rfl
      · exact .inl rfl
      · exact .inr (.inl rfl)
  · intro x hx
    have : x = ("12".toList, "  ".toList) := by simpa using hx
    rw [this]
    decide

example : splitLine "1\t2 3".toList ' ' = ["12".toList, "3".toList] :=
  C113_white_vanishes (c := ' ') (x := '\t') (v := "1".toList) (w := "2".toList) (z := "3".toList) (.inr (.inl rfl)) (by decide)
    (word_digit (by decide) (by decide)) (word_digit (by decide) (by decide)) (word_digit (by decide) (by decide))

example : readPoints digits 1 (some ["title".toList, "12".toList]) 1 ' ' = .error (.thrown .runtime) :=
  C113_one_column (word_digit (w := "12".toList) (by decide) (by decide)) (by simp)

example : readPoints digits 2 (some ["title".toList, "1 2".toList, "3 4".toList]) 1 ' ' = .ok [![1, 2], ![3, 4]] := by
  have car : ∀ (a b : Char) (x y : ℤ), a.isDigit = true → b.isDigit = true → digits [a] = some x → digits [b] = some y →
      Spec.Carries digits 2 ' ' [a, ' ', b] ![x, y] := by
    intro a b x y ha hb hx hy
    refine ⟨[], [([a], [' ']), ([b], [])], fun x hx => by simp at hx, ⟨?_, ?_⟩, rfl, by simp, rfl, ?_⟩
    · intro z hz
      simp only [List.mem_cons, List.not_mem_nil, or_false] at hz
      rcases hz with rfl | rfl
      · exact ⟨word_digit (by simp) (by simpa using ha), fun x hx => .inr (by simpa using hx)⟩
      · exact ⟨word_digit (by simp) (by simpa using hb), fun x hx => by simp at hx⟩
    · intro z hz
      have : z = ([a], [' ']) := by simpa using hz
      rw [this]
      simp
    · intro i w hw
      fin_cases i
      · have : [a] = w := by simpa using hw
        rw [← this]
        exact hx
      · have : [b] = w := by simpa using hw
        rw [← this]
        exact hy
  refine (C113_read_partial (dim := 2) (num := digits) (c := ' ') ["title".toList, "1 2".toList, "3 4".toList] 1 [![1, 2], ![3, 4]] rfl ?_).1
  rintro (_ | _ | i) line x h1 h2
  · cases h1
    cases h2
    exact car '1' '2' 1 2 (by decide) (by decide) rfl rfl
  · cases h1
    cases h2
    exact car '3' '4' 3 4 (by decide) (by decide) rfl rfl
  · cases h2

end witnesses

end Gbs
