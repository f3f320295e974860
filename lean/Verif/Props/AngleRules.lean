import Verif.Props.Angles

/-!
# C212: rules of the normalised angles
-/

set_option linter.unusedSectionVars false

namespace MU
open Spec

theorem Spec.SameAngle.symm' {T a b : ℝ} (h : SameAngle T a b) : SameAngle T b a := by
  obtain ⟨n, rfl⟩ := h
  exact ⟨-n, by push_cast; ring⟩

theorem Spec.SameAngle.trans' {T a b c : ℝ} (h : SameAngle T a b) (h' : SameAngle T b c) : SameAngle T a c := by
  obtain ⟨n, rfl⟩ := h
  obtain ⟨k, rfl⟩ := h'
  exact ⟨n + k, by push_cast; ring⟩

theorem Spec.SameAngle.comb {T a b c d : ℝ} (h : SameAngle T a b) (h' : SameAngle T c d) (k l : ℤ) : SameAngle T (k * a + l * c) (k * b + l * d) := by
  obtain ⟨n, rfl⟩ := h
  obtain ⟨m, rfl⟩ := h'
  exact ⟨k * n + l * m, by push_cast; ring⟩

/-- `N` gives the only representative of the angle in the set `S`, for a turn `T`. -/
structure Represents (N : ℝ → ℝ) (S : Set ℝ) (T : ℝ) : Prop where
  mem : ∀ a, N a ∈ S
  same : ∀ a, SameAngle T a (N a)
  only : ∀ a r, r ∈ S → SameAngle T a r → r = N a

theorem represents_0_360 : Represents (normalize_0_360 id) (Set.Ico 0 360) 360 :=
  ⟨fun a => ⟨(C47_0_360 a).1, (C47_0_360 a).2.1⟩, fun a => (C47_0_360 a).2.2.1, fun a r h => (C47_0_360 a).2.2.2.1 r h.1 h.2⟩
theorem represents_0_2PI : Represents (normalize_0_2PI id) (Set.Ico 0 MU_2PI) MU_2PI :=
  ⟨fun a => ⟨(C47_0_2PI a).1, (C47_0_2PI a).2.1⟩, fun a => (C47_0_2PI a).2.2.1, fun a r h => (C47_0_2PI a).2.2.2.1 r h.1 h.2⟩
theorem represents_180 : Represents (normalize__180_180 id) (Set.Ioc (-180) 180) 360 :=
  ⟨fun a => ⟨(C47_180_180 a).1, (C47_180_180 a).2.1⟩, fun a => (C47_180_180 a).2.2.1, fun a r h => (C47_180_180 a).2.2.2.1 r h.1 h.2⟩
theorem represents_PI : Represents (normalize__PI_PI id) (Set.Ioc (-M_PI) M_PI) MU_2PI :=
  ⟨fun a => ⟨(C47_PI_PI a).1, (C47_PI_PI a).2.1⟩, fun a => (C47_PI_PI a).2.2.1, fun a r h => (C47_PI_PI a).2.2.2.1 r h.1 h.2⟩

namespace Represents
variable {N N' : ℝ → ℝ} {S S' : Set ℝ} {T : ℝ} (h : Represents N S T)
include h

theorem eq_iff (a b : ℝ) : N a = N b ↔ SameAngle T a b :=
  ⟨fun e => (h.same a).trans' (e ▸ (h.same b).symm'), fun e => h.only b (N a) (h.mem a) (e.symm'.trans' (h.same a))⟩

theorem comb (a b : ℝ) (k l : ℤ) : N (k * N a + l * N b) = N (k * a + l * b) := (h.eq_iff _ _).2 ((h.same a).comb (h.same b) k l).symm'

theorem cross (h' : Represents N' S' T) (a : ℝ) : N (N' a) = N a := (h.eq_iff _ _).2 (h'.same a).symm'

end Represents

/-- C212: two angles have the same normalised value exactly when they differ by whole turns. -/
theorem C212_same (a b : ℝ) :
    (normalize_0_360 id a = normalize_0_360 id b ↔ SameAngle 360 a b) ∧ (normalize__180_180 id a = normalize__180_180 id b ↔ SameAngle 360 a b) ∧
    (normalize_0_2PI id a = normalize_0_2PI id b ↔ SameAngle MU_2PI a b) ∧ (normalize__PI_PI id a = normalize__PI_PI id b ↔ SameAngle MU_2PI a b) :=
  ⟨represents_0_360.eq_iff a b, represents_180.eq_iff a b, represents_0_2PI.eq_iff a b, represents_PI.eq_iff a b⟩

/-- C212: sums, differences and whole multiples may be taken of normalised angles: normalising again gives what normalising the sum of the angles gives. -/
theorem C212_sums (a b : ℝ) (k l : ℤ) :
    normalize_0_360 id (k * normalize_0_360 id a + l * normalize_0_360 id b) = normalize_0_360 id (k * a + l * b) ∧
    normalize__180_180 id (k * normalize__180_180 id a + l * normalize__180_180 id b) = normalize__180_180 id (k * a + l * b) ∧
    normalize_0_2PI id (k * normalize_0_2PI id a + l * normalize_0_2PI id b) = normalize_0_2PI id (k * a + l * b) ∧
    normalize__PI_PI id (k * normalize__PI_PI id a + l * normalize__PI_PI id b) = normalize__PI_PI id (k * a + l * b) :=
  ⟨represents_0_360.comb a b k l, represents_180.comb a b k l, represents_0_2PI.comb a b k l, represents_PI.comb a b k l⟩

/-- C212: the two intervals: one normalisation may be done before the other, and the second is the first minus a turn above half a turn. -/
theorem C212_intervals (a : ℝ) :
    normalize_0_360 id (normalize__180_180 id a) = normalize_0_360 id a ∧ normalize__180_180 id (normalize_0_360 id a) = normalize__180_180 id a ∧
    normalize_0_2PI id (normalize__PI_PI id a) = normalize_0_2PI id a ∧ normalize__PI_PI id (normalize_0_2PI id a) = normalize__PI_PI id a ∧
    normalize__180_180 id a = (if normalize_0_360 id a ≤ 180 then normalize_0_360 id a else normalize_0_360 id a - 360) ∧
    normalize__PI_PI id a = (if normalize_0_2PI id a ≤ M_PI then normalize_0_2PI id a else normalize_0_2PI id a - MU_2PI) := by
  refine ⟨represents_0_360.cross represents_180 a, represents_180.cross represents_0_360 a, represents_0_2PI.cross represents_PI a, represents_PI.cross represents_0_2PI a, ?_, ?_⟩
  · have h := represents_0_360.mem a
    have hs := represents_0_360.same a
    symm
    split_ifs with hc
    · exact represents_180.only a _ ⟨by linarith [h.1], hc⟩ hs
    · exact represents_180.only a _ ⟨by linarith [not_le.1 hc], by linarith [h.2]⟩ (hs.trans' ⟨-1, by push_cast; ring⟩)
  · have h := represents_0_2PI.mem a
    have hs := represents_0_2PI.same a
    have hp := M_PI_pos
    have h2 : normalize_0_2PI id a < 2 * M_PI := h.2
    symm
    split_ifs with hc
    · exact represents_PI.only a _ ⟨by linarith [h.1], hc⟩ hs
    · refine represents_PI.only a _ ⟨?_, ?_⟩ (hs.trans' ⟨-1, by push_cast; ring⟩)
      · unfold MU_2PI; linarith [not_le.1 hc]
      · unfold MU_2PI; linarith

theorem opposite_sym {N : ℝ → ℝ} {p : ℝ} (hp : 0 < p) (h : Represents N (Set.Ioc (-p) p) (2 * p)) (a : ℝ) : N (-a) = if N a = p then p else -N a := by
  have hm := h.mem a
  have hs : SameAngle (2 * p) (-a) (-N a) := by simpa using (h.same a).comb (h.same a) (-1) 0
  symm
  split_ifs with hc
  · rw [hc] at hs
    exact h.only _ _ ⟨by linarith, le_rfl⟩ (hs.trans' ⟨1, by push_cast; ring⟩)
  · exact h.only _ _ ⟨neg_lt_neg (lt_of_le_of_ne hm.2 hc), by linarith [hm.1]⟩ hs

theorem opposite_up {N : ℝ → ℝ} {T : ℝ} (hT : 0 < T) (h : Represents N (Set.Ico 0 T) T) (a : ℝ) : N (-a) = if N a = 0 then 0 else T - N a := by
  have hm := h.mem a
  have hs : SameAngle T (-a) (-N a) := by simpa using (h.same a).comb (h.same a) (-1) 0
  symm
  split_ifs with hc
  · rw [hc, neg_zero] at hs
    exact h.only _ _ ⟨le_rfl, hT⟩ hs
  · have : 0 < N a := lt_of_le_of_ne hm.1 (Ne.symm hc)
    exact h.only _ _ ⟨by linarith [hm.2], by linarith⟩ (hs.trans' ⟨1, by push_cast; ring⟩)

theorem represents_180' : Represents (normalize__180_180 id) (Set.Ioc (-180) 180) (2 * 180) := by
  rw [show (2 * 180 : ℝ) = 360 by norm_num]
  exact represents_180

/-- C212: the opposite angle. -/
theorem C212_opposite (a : ℝ) :
    normalize__180_180 id (-a) = (if normalize__180_180 id a = 180 then 180 else -normalize__180_180 id a) ∧
    normalize__PI_PI id (-a) = (if normalize__PI_PI id a = M_PI then M_PI else -normalize__PI_PI id a) ∧
    normalize_0_360 id (-a) = (if normalize_0_360 id a = 0 then 0 else 360 - normalize_0_360 id a) ∧
    normalize_0_2PI id (-a) = (if normalize_0_2PI id a = 0 then 0 else MU_2PI - normalize_0_2PI id a) :=
  ⟨opposite_sym (by norm_num) represents_180' a, opposite_sym M_PI_pos represents_PI a, opposite_up (by norm_num) represents_0_360 a,
    opposite_up (by unfold MU_2PI; linarith [M_PI_pos]) represents_0_2PI a⟩

theorem sameAngle_scaled {T a b c : ℝ} (h : SameAngle T a b) : SameAngle (c * T) (c * a) (c * b) := by
  obtain ⟨n, rfl⟩ := h
  exact ⟨n, by ring⟩

/-- C212: degrees and radians: normalising before or after the conversion is the same. -/
theorem C212_units (a : ℝ) :
    normalize_0_2PI id (MU_PI_180 * a) = MU_PI_180 * normalize_0_360 id a ∧ normalize__PI_PI id (MU_PI_180 * a) = MU_PI_180 * normalize__180_180 id a ∧
    normalize_0_360 id (MU_180_PI * a) = MU_180_PI * normalize_0_2PI id a ∧ normalize__180_180 id (MU_180_PI * a) = MU_180_PI * normalize__PI_PI id a := by
  have hp := M_PI_pos
  have c1 : 0 < MU_PI_180 := by unfold MU_PI_180; positivity
  have c2 : 0 < MU_180_PI := by unfold MU_180_PI; positivity
  have t1 : MU_PI_180 * 360 = MU_2PI := by unfold MU_PI_180 MU_2PI; ring
  have t2 : MU_180_PI * MU_2PI = 360 := by unfold MU_180_PI MU_2PI; field_simp; norm_num
  have s1 : MU_PI_180 * 180 = M_PI := by unfold MU_PI_180; ring
  have s2 : MU_180_PI * M_PI = 180 := by unfold MU_180_PI; field_simp
  refine ⟨(represents_0_2PI.only _ _ ?_ ?_).symm, (represents_PI.only _ _ ?_ ?_).symm, (represents_0_360.only _ _ ?_ ?_).symm, (represents_180.only _ _ ?_ ?_).symm⟩
  · have h := represents_0_360.mem a
    exact ⟨mul_nonneg c1.le h.1, t1 ▸ mul_lt_mul_of_pos_left h.2 c1⟩
  · exact t1 ▸ sameAngle_scaled (represents_0_360.same a)
  · have h := represents_180.mem a
    refine ⟨?_, s1 ▸ mul_le_mul_of_nonneg_left h.2 c1.le⟩
    have := mul_lt_mul_of_pos_left h.1 c1
    rwa [mul_neg, s1] at this
  · exact t1 ▸ sameAngle_scaled (represents_180.same a)
  · have h := represents_0_2PI.mem a
    exact ⟨mul_nonneg c2.le h.1, t2 ▸ mul_lt_mul_of_pos_left h.2 c2⟩
  · exact t2 ▸ sameAngle_scaled (represents_0_2PI.same a)
  · have h := represents_PI.mem a
    refine ⟨?_, s2 ▸ mul_le_mul_of_nonneg_left h.2 c2.le⟩
    have := mul_lt_mul_of_pos_left h.1 c2
    rwa [mul_neg, s2] at this
  · exact t2 ▸ sameAngle_scaled (represents_PI.same a)

theorem smallest_sym {N : ℝ → ℝ} {p : ℝ} (hp : 0 < p) (h : Represents N (Set.Ioc (-p) p) (2 * p)) {a r : ℝ} (hr : SameAngle (2 * p) a r) : |N a| ≤ |r| := by
  have hm := h.mem a
  have h1 : |N a| ≤ p := abs_le.2 ⟨hm.1.le, hm.2⟩
  by_cases hc : |r| < p
  · rw [h.only a r ⟨by linarith [(abs_lt.1 hc).1], (abs_lt.1 hc).2.le⟩ hr]
  · exact h1.trans (not_lt.1 hc)

/-- C212: the shortest turn: the value of `Normalize__180_180` (`Normalize__PI_PI`) is the smallest in size of all values of the angle. -/
theorem C212_smallest (a r : ℝ) :
    (SameAngle 360 a r → |normalize__180_180 id a| ≤ |r|) ∧ (SameAngle MU_2PI a r → |normalize__PI_PI id a| ≤ |r|) :=
  ⟨fun h => smallest_sym (by norm_num) represents_180' (by rwa [show (2 * 180 : ℝ) = 360 by norm_num]), fun h => smallest_sym M_PI_pos represents_PI h⟩

theorem distance_sym {N : ℝ → ℝ} {p : ℝ} (hp : 0 < p) (h : Represents N (Set.Ioc (-p) p) (2 * p)) (a b c : ℝ) :
    (|N (a - b)| = 0 ↔ SameAngle (2 * p) a b) ∧ |N (a - b)| = |N (b - a)| ∧ |N (a - c)| ≤ |N (a - b)| + |N (b - c)| ∧ |N (a - b)| ≤ p := by
  refine ⟨?_, ?_, ?_, abs_le.2 ⟨(h.mem _).1.le, (h.mem _).2⟩⟩
  · rw [abs_eq_zero]
    constructor
    · intro e
      obtain ⟨n, hn⟩ := h.same (a - b)
      exact ⟨n, by linarith⟩
    · rintro ⟨n, hn⟩
      exact (h.only (a - b) 0 ⟨by linarith, hp.le⟩ ⟨n, by linarith⟩).symm
  · refine le_antisymm ?_ ?_
    · have := smallest_sym hp h (a := a - b) (r := -N (b - a)) (by
        have := (h.same (b - a)).comb (h.same 0) (-1) 0
        simpa using this)
      rwa [abs_neg] at this
    · have := smallest_sym hp h (a := b - a) (r := -N (a - b)) (by
        have := (h.same (a - b)).comb (h.same 0) (-1) 0
        simpa using this)
      rwa [abs_neg] at this
  · refine (smallest_sym hp h (a := a - c) (r := N (a - b) + N (b - c)) ?_).trans (abs_add_le _ _)
    have := (h.same (a - b)).comb (h.same (b - c)) 1 1
    simpa using this

/-- C212: so the size of the normalised difference is a distance between directions: zero exactly for the same direction, the same both ways, never longer than a way through a third
direction, and at most half a turn. -/
theorem C212_distance (a b c : ℝ) :
    ((|normalize__180_180 id (a - b)| = 0 ↔ SameAngle 360 a b) ∧ |normalize__180_180 id (a - b)| = |normalize__180_180 id (b - a)| ∧
      |normalize__180_180 id (a - c)| ≤ |normalize__180_180 id (a - b)| + |normalize__180_180 id (b - c)| ∧ |normalize__180_180 id (a - b)| ≤ 180) ∧
    ((|normalize__PI_PI id (a - b)| = 0 ↔ SameAngle MU_2PI a b) ∧ |normalize__PI_PI id (a - b)| = |normalize__PI_PI id (b - a)| ∧
      |normalize__PI_PI id (a - c)| ≤ |normalize__PI_PI id (a - b)| + |normalize__PI_PI id (b - c)| ∧ |normalize__PI_PI id (a - b)| ≤ M_PI) := by
  have := distance_sym (by norm_num) represents_180' a b c
  rw [show (2 * 180 : ℝ) = 360 by norm_num] at this
  exact ⟨this, distance_sym M_PI_pos represents_PI a b c⟩

/-- From 350 to 10 degrees the shortest turn is 20 degrees. -/
example : normalize__180_180 id (10 - 350) = 20 := (represents_180.only _ _ ⟨by norm_num, by norm_num⟩ ⟨1, by norm_num⟩).symm
example : SameAngle 360 (-340) 20 ∧ normalize__180_180 id 180 = 180 := ⟨⟨1, by norm_num⟩, (represents_180.only _ _ ⟨by norm_num, by norm_num⟩ ⟨0, by norm_num⟩).symm⟩

end MU
