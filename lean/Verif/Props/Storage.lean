import Verif.Model.Storage
import Mathlib.Algebra.Order.Ring.Defs
import Mathlib.Data.Rat.Defs

/-!
# C166: elements of vectors and matrices hold the value last given to them
-/

set_option linter.unusedSectionVars false

namespace MU

open Spec

variable {K : Type} [Zero K] [One K]

/-- The object has the size and the elements of the specification. -/
structure Stored (c : Container) (h : List (Touch K)) (m : Mat (Option K)) : Prop where
  rows : m.rows = (sizeAfter c h).1
  cols : m.cols = (sizeAfter c h).2
  elem : ∀ i j, i < m.rows → j < m.cols → m.entry i j = heldAfter c h i j

theorem storeSet_spec (B : Build) (xs : List K) : ∀ (m : Mat (Option K)) (k : Nat), m.cols = 1 → k + xs.length ≤ m.rows →
    ∃ m', storeSet B m k xs = .ok m' ∧ m'.rows = m.rows ∧ m'.cols = m.cols ∧
      ∀ i j, j < 1 → m'.entry i j = if k ≤ i ∧ i < k + xs.length then xs[i - k]? else m.entry i j := by
  induction xs with
  | nil =>
    intro m k _ _
    refine ⟨m, rfl, rfl, rfl, fun i j _ => ?_⟩
    rw [if_neg]
    simp only [List.length_nil]
    omega
  | cons x xs ih =>
    intro m k hc hk
    simp only [List.length_cons] at hk
    have e : storePut B m k 0 x = .ok { m with entry := fun i' j' => if i' = k ∧ j' = 0 then some x else m.entry i' j' } := by
      unfold storePut Mat.set
      rw [if_pos ⟨by omega, by omega⟩]
    obtain ⟨m', h1, h2, h3, h4⟩ := ih { m with entry := fun i' j' => if i' = k ∧ j' = 0 then some x else m.entry i' j' } (k + 1) hc (by simp only; omega)
    refine ⟨m', ?_, h2, h3, fun i j hj => ?_⟩
    · unfold storeSet
      rw [e]
      exact h1
    · rw [h4 i j hj]
      simp only [List.length_cons]
      obtain rfl : j = 0 := by omega
      rcases Nat.lt_trichotomy i k with hi | rfl | hi
      · rw [if_neg (by omega), if_neg (by omega), if_neg (by omega)]
      · rw [if_neg (by omega), if_pos ⟨rfl, rfl⟩, if_pos ⟨le_refl _, by omega⟩]
        simp
      · by_cases hi2 : i < k + 1 + xs.length
        · rw [if_pos ⟨by omega, hi2⟩, if_pos ⟨by omega, by omega⟩]
          obtain ⟨d, rfl⟩ : ∃ d, i = k + 1 + d := ⟨i - (k + 1), by omega⟩
          rw [show k + 1 + d - (k + 1) = d by omega, show k + 1 + d - k = d + 1 by omega, List.getElem?_cons_succ]
        · rw [if_neg (by omega), if_neg (by omega), if_neg (by omega)]

theorem stored_construct (c : Container) : Stored c [] (construct (K := K) c) := by
  cases c <;> exact ⟨rfl, rfl, fun _ _ _ _ => rfl⟩

theorem Stored.not_indeterminate {c : Container} {h : List (Touch K)} {m : Mat (Option K)} (S : Stored c h m)
    (hd : ∀ i j, Exists c h i j → (heldAfter c h i j).isSome) : ¬ Indeterminate m := by
  rintro ⟨i, j, hi, hj, e⟩
  have := hd i j ⟨S.rows ▸ hi, S.cols ▸ hj⟩
  rw [← S.elem i j hi hj, e] at this
  cases this

theorem vector_cols {c : Container} {xs : List K} (hc : c.Has (.all xs)) : ∀ h : List (Touch K), CorrectUse c h → sizeAfter c h = (xs.length, 1) := by
  intro h
  induction h with
  | nil =>
    intro _
    cases c <;> simp_all [Container.Has, sizeAfter, Container.size]
  | cons t h ih =>
    rintro ⟨h1, h2, -⟩
    cases t <;> try exact ih h1
    cases c <;> simp_all [Container.Has]

theorem stored_run (B : Build) (c : Container) : ∀ h : List (Touch K), CorrectUse c h → ∃ m, storeRun B c h = .ok m ∧ Stored c h m := by
  intro h
  induction h with
  | nil =>
    intro _
    exact ⟨_, rfl, stored_construct c⟩
  | cons t h ih =>
    rintro ⟨h1, h2, h3⟩
    obtain ⟨m, e, S⟩ := ih h1
    have er : storeRun B c (t :: h) = storeStep B m t := by
      rw [storeRun, e]
      rfl
    rw [er]
    cases t with
    | null => exact ⟨_, rfl, S.rows, S.cols, fun _ _ _ _ => rfl⟩
    | ones => exact ⟨_, rfl, S.rows, S.cols, fun _ _ _ _ => rfl⟩
    | identity => exact ⟨_, rfl, S.rows, S.cols, fun _ _ _ _ => rfl⟩
    | all xs =>
      have hs := vector_cols h2 h h1
      have hr : m.rows = xs.length := by rw [S.rows, hs]
      have hcol : m.cols = 1 := by rw [S.cols, hs]
      obtain ⟨m', e1, e2, e3, e4⟩ := storeSet_spec B xs m 0 hcol (by omega)
      refine ⟨m', e1, e2.trans S.rows, e3.trans S.cols, fun i j hi hj => ?_⟩
      rw [e4 i j (by omega), if_pos ⟨Nat.zero_le _, by omega⟩]
      rfl
    | put i j a =>
      have h3 : Exists c h i j := h3
      refine ⟨{ m with entry := fun i' j' => if i' = i ∧ j' = j then some a else m.entry i' j' }, ?_, S.rows, S.cols, fun i' j' hi hj => ?_⟩
      · change storePut B m i j a = _
        unfold storePut Mat.set
        rw [if_pos ⟨S.rows ▸ h3.1, S.cols ▸ h3.2⟩]
      · simp only [heldAfter]
        split_ifs
        · rfl
        · exact S.elem i' j' hi hj
    | transpose =>
      refine ⟨⟨m.cols, m.rows, fun i j => m.entry j i⟩, ?_, S.cols, S.rows, fun i j hi hj => S.elem j i hj hi⟩
      change storeTranspose m = _
      unfold storeTranspose
      rw [if_neg (S.not_indeterminate h3)]
    | reverse =>
      refine ⟨⟨m.rows, m.cols, fun i j => m.entry (m.rows - 1 - i) j⟩, ?_, S.rows, S.cols, fun i j hi hj => ?_⟩
      · change storeReverse m = _
        unfold storeReverse
        rw [if_neg (S.not_indeterminate h3)]
      · simp only at hi hj ⊢
        rw [S.elem (m.rows - 1 - i) j (by omega) hj, S.rows]
        rfl

/-- C166. After every correct use of a vector or of a matrix, in both builds: the object has the size of the specification, reading an element returns the value it
holds, reading one that was given no value is undefined behaviour, and an index outside the object is an assertion of Eigen's, in reading and in writing. -/
theorem C166_elements (B : Build) (c : Container) (h : List (Touch K)) (hc : CorrectUse c h) :
    ∃ m, storeRun B c h = .ok m ∧ m.rows = (sizeAfter c h).1 ∧ m.cols = (sizeAfter c h).2 ∧
      (∀ i j, Exists c h i j → ∀ a, heldAfter c h i j = some a → storeAt B m i j = .ok a) ∧
      (∀ i j, Exists c h i j → heldAfter c h i j = none → storeAt B m i j = .ub) ∧
      (∀ i j a, ¬ Exists c h i j → storeAt B m i j = eigenFail B ∧ storePut B m i j a = eigenFail B) := by
  obtain ⟨m, e, S⟩ := stored_run B c h hc
  refine ⟨m, e, S.rows, S.cols, fun i j hij a ha => ?_, fun i j hij ha => ?_, fun i j a hij => ?_⟩
  · have hb : i < m.rows ∧ j < m.cols := ⟨S.rows ▸ hij.1, S.cols ▸ hij.2⟩
    unfold storeAt Mat.at'
    rw [if_pos hb, S.elem i j hb.1 hb.2, ha]
    rfl
  · have hb : i < m.rows ∧ j < m.cols := ⟨S.rows ▸ hij.1, S.cols ▸ hij.2⟩
    unfold storeAt Mat.at'
    rw [if_pos hb, S.elem i j hb.1 hb.2, ha]
    rfl
  · have hb : ¬ (i < m.rows ∧ j < m.cols) := by
      rw [S.rows, S.cols]
      exact hij
    unfold storeAt storePut Mat.at' Mat.set
    rw [if_neg hb, if_neg hb]
    refine ⟨?_, rfl⟩
    unfold eigenFail
    split_ifs <;> rfl

/-- C166. The value read is the last one given: whatever came before, if an operation gave `a` to the element and the later operations wrote other elements only,
the element reads `a`. -/
theorem C166_last (B : Build) (c : Container) (later earlier : List (Touch K)) (t : Touch K) (i j : Nat) (a : K)
    (hc : CorrectUse c (later ++ t :: earlier)) (ht : Gives t i j a) (hl : ∀ s ∈ later, WritesAnother s i j)
    (hij : Exists c (later ++ t :: earlier) i j) :
    ∃ m, storeRun B c (later ++ t :: earlier) = .ok m ∧ storeAt B m i j = .ok a := by
  have key : heldAfter c (later ++ t :: earlier) i j = some a := by
    clear hc hij
    induction later with
    | nil =>
      cases t <;> simp_all [Gives, heldAfter]
    | cons s later ih =>
      have hs := hl s (by simp)
      have := ih fun s' hs' => hl s' (by simp [hs'])
      cases s with
      | put i' j' b =>
        have hs : ¬ (i' = i ∧ j' = j) := hs
        rw [List.cons_append, heldAfter, if_neg (fun hh => hs ⟨hh.1.symm, hh.2.symm⟩)]
        exact this
      | _ => exact hs.elim
  obtain ⟨m, e, -, -, h1, -⟩ := C166_elements B c _ hc
  exact ⟨m, e, h1 i j hij a key⟩

/-- C166. A new `Vector2d`, `Vector3d` or `Vector6d` is null; the elements of a new `VectorN`, `MatrixMN`, `Matrix33` or `Matrix66` must not be read. -/
theorem C166_new (B : Build) (c : Container) (i j : Nat) (hi : i < c.size.1) (hj : j < c.size.2) :
    storeAt B (construct (K := K) c) i j = if c.startsNull then .ok 0 else .ub := by
  obtain ⟨m, e, -, -, h1, h2, -⟩ := C166_elements (K := K) B c [] trivial
  cases e
  cases hn : c.startsNull with
  | true => simpa using h1 i j ⟨hi, hj⟩ 0 (by simp [heldAfter, hn])
  | false => simpa using h2 i j ⟨hi, hj⟩ (by simp [heldAfter, hn])

/-- C166: a matrix with two rows and three columns is set to zero, two elements are written, it is transposed and an element is written again. -/
example : ∃ m, storeRun (K := ℚ) ⟨true⟩ (.matrixMN 2 3) [.put 0 0 7, .transpose, .put 1 2 5, .put 0 1 4, .null] = .ok m ∧ m.rows = 3 ∧ m.cols = 2 ∧
    storeAt ⟨true⟩ m 2 1 = .ok 5 ∧ storeAt ⟨true⟩ m 1 0 = .ok 4 ∧ storeAt ⟨true⟩ m 0 0 = .ok 7 ∧ storeAt ⟨true⟩ m 1 2 = .aborts := by
  have hc : CorrectUse (K := ℚ) (.matrixMN 2 3) [.put 0 0 7, .transpose, .put 1 2 5, .put 0 1 4, .null] := by
    refine ⟨⟨⟨⟨⟨trivial, trivial, trivial⟩, trivial, by decide, by decide⟩, trivial, by decide, by decide⟩, trivial, fun i j _ => ?_⟩, trivial, by decide, by decide⟩
    simp only [heldAfter]
    split_ifs <;> rfl
  obtain ⟨m, e, hr, hcol, h1, -, h3⟩ := C166_elements (K := ℚ) ⟨true⟩ _ _ hc
  exact ⟨m, e, hr, hcol, h1 2 1 ⟨by decide, by decide⟩ 5 rfl, h1 1 0 ⟨by decide, by decide⟩ 4 rfl, h1 0 0 ⟨by decide, by decide⟩ 7 rfl,
    (h3 1 2 0 (fun h => absurd h.2 (by decide))).1⟩

/-- C166: a vector of three elements of which two were written and one was not. -/
example : ∃ m, storeRun (K := ℚ) ⟨false⟩ (.vectorN 3) [.put 0 0 1, .put 2 0 4] = .ok m ∧ storeAt ⟨false⟩ m 2 0 = .ok 4 ∧ storeAt ⟨false⟩ m 1 0 = .ub := by
  obtain ⟨m, e, -, -, h1, h2, -⟩ := C166_elements (K := ℚ) ⟨false⟩ (.vectorN 3) [.put 0 0 1, .put 2 0 4]
    ⟨⟨trivial, rfl, by decide, by decide⟩, rfl, by decide, by decide⟩
  exact ⟨m, e, h1 2 0 ⟨by decide, by decide⟩ 4 rfl, h2 1 0 ⟨by decide, by decide⟩ rfl⟩

/-- C166: `Set` of a `Vector3d`, then one element is written. -/
example : ∃ m, storeRun (K := ℚ) ⟨true⟩ .vector3 ([.put 1 0 9] ++ .all [1, 2, 3] :: []) = .ok m ∧ storeAt ⟨true⟩ m 2 0 = .ok 3 :=
  C166_last ⟨true⟩ .vector3 [.put 1 0 9] [] (.all [1, 2, 3]) 2 0 3 ⟨⟨trivial, rfl, trivial⟩, rfl, by decide, by decide⟩ rfl
    (by simp [WritesAnother]) ⟨by decide, by decide⟩

end MU
