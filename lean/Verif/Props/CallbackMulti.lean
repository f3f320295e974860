import Verif.Model.CallbackMulti
import Verif.Props.CallbackFailures
import Verif.Props.Chebyshev

/-!
# C174: Chebyshev series in two and three variables whose function may throw
-/

set_option linter.unusedSectionVars false

namespace MU
open Spec Finset

/-- A function without state of which a call may fail: a call that returns gives `f p`. -/
def Spec.FailsAtTimes {P : Type} (F : List P → P → Res ℝ) (f : P → ℝ) : Prop := ∀ tr p y, F tr p = .ok y → y = f p

namespace SeriesC
variable {P R C : Type} {F : List P → P → Res ℝ} {f : P → ℝ} {I : C → Prop} {Q : P → Prop}

/-- A part of the program that calls nothing and does not fail. -/
def Tail (I : C → Prop) (m : Act (SeriesC P R C) Unit) (g : C → Res C) : Prop :=
  ∀ s, I s.coeffs → ∃ c, g s.coeffs = .ok c ∧ I c ∧ m.run s = (.ok (), { s with coeffs := c })

/-- A part of the program that calls the function `N` times, at points of `Q`, unless a call fails: when it returns it has the effect of `g` on the coefficients; when
it does not, the last call is the one that failed and if it was the only one the coefficients are as before. -/
def Step (F : List P → P → Res ℝ) (I : C → Prop) (Q : P → Prop) (N : Nat) (m : Act (SeriesC P R C) Unit) (g : C → Res C) : Prop :=
  ∀ s, s.m_function = F → I s.coeffs → ∃ o s' tr, m.run s = (o, s') ∧ s'.m_function = F ∧ s'.fields = s.fields ∧ I s'.coeffs ∧ s'.calls = s.calls ++ tr ∧
    (∀ p ∈ tr, Q p) ∧ 1 ≤ tr.length ∧ tr.length ≤ N ∧ (o = .ok () → tr.length = N ∧ g s.coeffs = .ok s'.coeffs) ∧
    (o ≠ .ok () → (tr.length = 1 → s'.coeffs = s.coeffs) ∧ ∃ t p, tr = t ++ [p] ∧ (F (s.calls ++ t) p >>= fun _ => .ok ()) = o)

variable {m m₁ m₂ : Act (SeriesC P R C) Unit} {g g₁ g₂ : C → Res C} {N : Nat}

theorem Tail.pure_ : Tail I (pure () : Act (SeriesC P R C) Unit) (fun c => .ok c) := fun s h => ⟨s.coeffs, rfl, h, rfl⟩

theorem Tail.ite {c : Prop} [Decidable c] (h₁ : Tail I m₁ g₁) (h₂ : Tail I m₂ g₂) : Tail I (if c then m₁ else m₂) (fun x => if c then g₁ x else g₂ x) := by
  by_cases h : c
  · simp only [if_pos h]
    exact h₁
  · simp only [if_neg h]
    exact h₂

section store
variable {ι : Type} [DecidableEq ι] (S : Store C ι ℝ) {q : ι}

theorem Tail.modify (hq : S.valid q) (op : ℝ → ℝ) : Tail (P := P) (R := R) (fun c => ∃ e, c = S.rep e)
    (SeriesC.modify fun c => S.get c q >>= fun a => S.set c q (op a)) (fun c => S.get c q >>= fun a => S.set c q (op a)) := by
  rintro s ⟨e, he⟩
  have e1 := S.modify hq e op
  rw [← he] at e1
  refine ⟨_, e1, ⟨_, rfl⟩, ?_⟩
  unfold SeriesC.modify
  rw [Act.run_get_bind]
  simp only [e1]
  rfl

theorem Tail.modify_then (hq : S.valid q) (op : ℝ → ℝ) (h : Tail (fun c => ∃ e, c = S.rep e) m g) : Tail (fun c => ∃ e, c = S.rep e)
    (SeriesC.modify (fun c => S.get c q >>= fun a => S.set c q (op a)) >>= fun _ => m) (fun c => S.get c q >>= fun a => S.set c q (op a) >>= g) := by
  intro s hs
  obtain ⟨c₁, h1, h2, h3⟩ := Tail.modify (P := P) (R := R) S hq op s hs
  obtain ⟨c₂, h4, h5, h6⟩ := h { s with coeffs := c₁ } h2
  refine ⟨c₂, ?_, h5, ?_⟩
  · show (S.get s.coeffs q >>= fun a => S.set s.coeffs q (op a) >>= g) = _
    obtain ⟨a, ha, hb⟩ := Res.bind_eq_ok.1 h1
    rw [ha, Res.ok_bind, hb, Res.ok_bind]
    exact h4
  · rw [Act.run_bind_ok h3, h6]

end store

theorem Step.call_then (hF : FailsAtTimes F f) {p : P} (hQ : Q p) {k : ℝ → Act (SeriesC P R C) Unit} {h : ℝ → C → Res C} (hk : ∀ v, Tail I (k v) (h v)) :
    Step F I Q 1 (call p >>= k) (h (f p)) := by
  intro s hs hI
  have hc : (call p : Act (SeriesC P R C) ℝ).run s = (F s.calls p, { s with calls := s.calls ++ [p] }) := by
    rw [← hs]
    rfl
  have hQ' : ∀ p' ∈ [p], Q p' := fun p' h' => by rw [List.mem_singleton.1 h']; exact hQ
  cases hv : F s.calls p with
  | ok v =>
    rw [hv] at hc
    obtain ⟨c, h1, h2, h3⟩ := hk v { s with calls := s.calls ++ [p] } hI
    refine ⟨.ok (), { s with coeffs := c, calls := s.calls ++ [p] }, [p], by rw [Act.run_bind_ok hc, h3], hs, rfl, h2, rfl, hQ', by simp, by simp, fun _ => ⟨rfl, ?_⟩, fun h' => absurd rfl h'⟩
    rw [← hF _ _ _ hv]
    exact h1
  | _ =>
    rw [hv] at hc
    refine ⟨_, { s with calls := s.calls ++ [p] }, [p], by rw [Act.run_bind, hc], hs, rfl, hI, rfl, hQ', by simp, by simp, fun h' => by simp at h',
      fun _ => ⟨fun _ => rfl, [], p, rfl, ?_⟩⟩
    rw [List.append_nil, hv]
    rfl

theorem Step.lift_then {α : Type} {r : Res α} {a : α} (e : r = .ok a) {k : α → Act (SeriesC P R C) Unit} {h : α → C → Res C} (hk : Step F I Q N (k a) (h a)) :
    Step F I Q N (Act.lift r >>= k) (fun c => r >>= fun a => h a c) := by
  subst e
  intro s hs hI
  exact hk s hs hI

theorem Step.tail (h₁ : Step F I Q N m₁ g₁) (h₂ : Tail I m₂ g₂) : Step F I Q N (m₁ >>= fun _ => m₂) (fun c => g₁ c >>= g₂) := by
  intro s hs hI
  obtain ⟨o, s', tr, h1, h2, h3, h4, h5, h6, h7, h8, h9, h10⟩ := h₁ s hs hI
  by_cases ho : o = .ok ()
  · subst ho
    obtain ⟨c, k1, k2, k3⟩ := h₂ s' h4
    refine ⟨.ok (), { s' with coeffs := c }, tr, by rw [Act.run_bind_ok h1, k3], h2, h3, k2, h5, h6, h7, h8, fun _ => ⟨(h9 rfl).1, ?_⟩, fun h' => absurd rfl h'⟩
    show (g₁ s.coeffs >>= g₂) = _
    rw [(h9 rfl).2, Res.ok_bind, k1]
  · refine ⟨o, s', tr, ?_, h2, h3, h4, h5, h6, h7, h8, fun h' => absurd h' ho, fun _ => h10 ho⟩
    rw [Act.run_bind, h1]
    cases o with
    | ok u => exact absurd rfl ho
    | _ => rfl

theorem Step.seq {N₁ N₂ : Nat} (h₁ : Step F I Q N₁ m₁ g₁) (h₂ : Step F I Q N₂ m₂ g₂) : Step F I Q (N₁ + N₂) (m₁ >>= fun _ => m₂) (fun c => g₁ c >>= g₂) := by
  intro s hs hI
  obtain ⟨o, s', tr, h1, h2, h3, h4, h5, h6, h7, h8, h9, h10⟩ := h₁ s hs hI
  by_cases ho : o = .ok ()
  · subst ho
    obtain ⟨o', s'', tr', k1, k2, k3, k4, k5, k6, k7, k8, k9, k10⟩ := h₂ s' h2 h4
    obtain ⟨h9, h11⟩ := h9 rfl
    refine ⟨o', s'', tr ++ tr', by rw [Act.run_bind_ok h1, k1], k2, k3.trans h3, k4, by rw [k5, h5, List.append_assoc], fun p hp => ?_, by simp; omega,
      by simp; omega, fun ho' => ⟨by rw [List.length_append, h9, (k9 ho').1], ?_⟩, fun ho' => ⟨fun hl => ?_, ?_⟩⟩
    · rcases List.mem_append.1 hp with hp | hp
      · exact h6 p hp
      · exact k6 p hp
    · show (g₁ s.coeffs >>= g₂) = _
      rw [h11, Res.ok_bind, (k9 ho').2]
    · rw [List.length_append] at hl
      omega
    · obtain ⟨-, t, p, e1, e2⟩ := k10 ho'
      refine ⟨tr ++ t, p, by rw [e1, List.append_assoc], ?_⟩
      rw [← e2, h5, List.append_assoc]
  · refine ⟨o, s', tr, ?_, h2, h3, h4, h5, h6, h7, by omega, fun h' => absurd h' ho, fun _ => h10 ho⟩
    rw [Act.run_bind, h1]
    cases o with
    | ok u => exact absurd rfl ho
    | _ => rfl

theorem Step.loopN {b : Nat → Act (SeriesC P R C) Unit} {k : Nat → C → Res C} (n : Nat) : ∀ lo, (∀ i, lo ≤ i → i < lo + (n + 1) → Step F I Q N (b i) (k i)) →
    Step F I Q ((n + 1) * N) (Act.loopN (n + 1) lo b) (forN (n + 1) lo k) := by
  induction n with
  | zero =>
    intro lo h
    have := (h lo (le_refl _) (by omega)).tail (m₂ := pure ()) (g₂ := fun c => .ok c) Tail.pure_
    rw [Nat.zero_add, one_mul]
    exact this
  | succ n ih =>
    intro lo h
    have := (h lo (le_refl _) (by omega)).seq (ih (lo + 1) fun i h1 h2 => h i (by omega) (by omega))
    rw [show (n + 1 + 1) * N = N + (n + 1) * N by ring]
    exact this

theorem Step.loop {n : Nat} {b : Nat → Act (SeriesC P R C) Unit} {k : Nat → C → Res C} (h : ∀ i, i < n + 1 → Step F I Q N (b i) (k i)) :
    Step F I Q ((n + 1) * N) (Act.loop 0 (n + 1) b) (forRange 0 (n + 1) k) :=
  Step.loopN n 0 fun i _ h2 => h i (by omega)

end SeriesC

/-! ## Two variables -/

namespace CS2C
open SeriesC

/-- The nodes. -/
def Node (x y : Seg ℝ) (n m : Nat) (p : ℝ × ℝ) : Prop := ∃ r t, r ≤ n ∧ t ≤ m ∧ p = (x.dom.node n r, y.dom.node m t)

/-- The object as made by the constructor, except for the values of the coefficients and the calls made. -/
structure Built (s : CS2C) (F : List (ℝ × ℝ) → ℝ × ℝ → Res ℝ) (x y : Seg ℝ) (n m : Nat) : Prop where
  function : s.m_function = F
  fields : s.fields = ⟨n, m, x, y⟩
  rows : s.coeffs.rows = n + 1
  cols : s.coeffs.cols = m + 1

theorem built_base (F : List (ℝ × ℝ) → ℝ × ℝ → Res ℝ) (x y : Seg ℝ) (n m : Nat) : (CS2C.base F x y n m).Built F x y n m := ⟨rfl, rfl, rfl, rfl⟩

theorem computeAij_run (B : Build) {F : List (ℝ × ℝ) → ℝ × ℝ → Res ℝ} {f : ℝ × ℝ → ℝ} (hF : FailsAtTimes F f) {x y : Seg ℝ} {n m : Nat} {s : CS2C}
    (hs : s.Built F x y n m) : ∃ o s' tr, (computeAij B).run s = (o, s') ∧ s'.Built F x y n m ∧ s'.calls = s.calls ++ tr ∧
      (∀ p ∈ tr, Node x y n m p) ∧ 1 ≤ tr.length ∧ tr.length ≤ ((n + 1) * (m + 1)) ^ 2 ∧
      (o = .ok () → tr.length = ((n + 1) * (m + 1)) ^ 2 ∧ (s.erase fun a b => f (a, b)).computeAij B = .ok (s'.erase fun a b => f (a, b))) ∧
      (o ≠ .ok () → (tr.length = 1 → s'.coeffs = s.coeffs) ∧ ∃ t p, tr = t ++ [p] ∧ (F (s.calls ++ t) p >>= fun _ => .ok ()) = o) := by
  obtain ⟨h1, h2, h3, h4⟩ := hs
  rcases s with ⟨F', ⟨n', m', x', y'⟩, c, cs⟩
  simp only [Fields2.mk.injEq] at h1 h2 h3 h4
  obtain ⟨rfl, rfl, rfl, rfl⟩ := h2
  subst h1
  let S := matStore ℝ B (n' + 1) (m' + 1)
  have key : Step (R := Fields2) F' (fun c => ∃ e, c = S.rep e) (Node x' y' n' m') ((n' + 1) * ((m' + 1) * ((n' + 1) * ((m' + 1) * 1))))
      (Act.loop 0 (n' + 1) (fun i =>
        Act.loop 0 (m' + 1) (fun j => do
          Act.loop 0 (n' + 1) (fun r => do
            let xr ← Act.lift (vAt ((List.range (n' + 1)).map (fun r => (chebNode n' r, x'.dom.node n' r))) r)
            Act.loop 0 (m' + 1) (fun t => do
              let yt ← Act.lift (vAt ((List.range (m' + 1)).map (fun r => (chebNode m' r, y'.dom.node m' r))) t)
              let v ← call (xr.2, yt.2)
              modify fun aij => do
                let a ← aij.at' B i j
                aij.set B i j (a + v * chebT i xr.1 * chebT j yt.1)))
          modify fun aij => do
            let a ← aij.at' B i j
            aij.set B i j (a * (4 / (((n' : ℝ) + 1) * ((m' : ℝ) + 1))))
          if i = 0 ∧ j = 0 then
            modify fun aij => do
              let a ← aij.at' B i j
              aij.set B i j (a / 4)
          else if (i = 0 ∧ j ≠ 0) ∨ (i ≠ 0 ∧ j = 0) then
            modify fun aij => do
              let a ← aij.at' B i j
              aij.set B i j (a / 2)
          else pure ())))
      (fun aij => forRange 0 (n' + 1) (fun i aij =>
        forRange 0 (m' + 1) (fun j aij => do
          let aij ← forRange 0 (n' + 1) (fun r aij => do
            let xr ← vAt ((List.range (n' + 1)).map (fun r => (chebNode n' r, x'.dom.node n' r))) r
            forRange 0 (m' + 1) (fun t aij => do
              let yt ← vAt ((List.range (m' + 1)).map (fun r => (chebNode m' r, y'.dom.node m' r))) t
              let a ← aij.at' B i j
              aij.set B i j (a + f (xr.2, yt.2) * chebT i xr.1 * chebT j yt.1)) aij) aij
          let a ← aij.at' B i j
          let aij ← aij.set B i j (a * (4 / (((n' : ℝ) + 1) * ((m' : ℝ) + 1))))
          if i = 0 ∧ j = 0 then do
            let a ← aij.at' B i j
            aij.set B i j (a / 4)
          else if (i = 0 ∧ j ≠ 0) ∨ (i ≠ 0 ∧ j = 0) then do
            let a ← aij.at' B i j
            aij.set B i j (a / 2)
          else return aij) aij) aij) := by
    refine Step.loop fun i hi => Step.loop fun j hj => ?_
    have hv : S.valid (i, j) := ⟨hi, hj⟩
    refine Step.tail (Step.loop fun r hr => ?_) (Tail.modify_then S hv _ (Tail.ite (Tail.modify S hv (fun a => a / 4))
      (Tail.ite (Tail.modify S hv (fun a => a / 2)) Tail.pure_)))
    refine Step.lift_then (vAt_map _ hr) (Step.loop fun t ht => ?_)
    refine Step.lift_then (vAt_map _ ht) ?_
    exact Step.call_then hF ⟨r, t, by omega, by omega, rfl⟩ (h := fun v c => S.get c (i, j) >>= fun a => S.set c (i, j) (a + v * chebT i (chebNode n' r) * chebT j (chebNode m' t)))
      fun v => Tail.modify S hv _
  obtain ⟨o, s', tr, k1, k2, k3, ⟨e', k4⟩, k5, k6, k7, k8, k9, k10⟩ := key ⟨F', ⟨n', m', x', y'⟩, c, cs⟩ rfl ⟨fun p => c.entry p.1 p.2, by
    show c = ⟨n' + 1, m' + 1, fun i j => c.entry i j⟩
    rw [← h3, ← h4]⟩
  have hN : (n' + 1) * ((m' + 1) * ((n' + 1) * ((m' + 1) * 1))) = ((n' + 1) * (m' + 1)) ^ 2 := by ring
  rw [hN] at k8 k9
  refine ⟨o, s', tr, ?_, ⟨k2, k3, by rw [k4]; rfl, by rw [k4]; rfl⟩, k5, k6, k7, k8, fun ho => ⟨(k9 ho).1, ?_⟩, k10⟩
  · rw [← k1]
    unfold computeAij
    rw [Act.run_get_bind]
    simp only [abscissae_ok, Act.run_lift_ok_bind]
  · unfold CS2.computeAij
    have e1 := (k9 ho).2
    simp only [abscissae_ok, Res.ok_bind, erase] at e1 ⊢
    rw [e1, k3]
    rfl

end CS2C

/-! ## Three variables -/

namespace CS3C
open SeriesC

/-- The nodes. -/
def Node (x y z : Seg ℝ) (n m l : Nat) (p : ℝ × ℝ × ℝ) : Prop :=
  ∃ r q t, r ≤ n ∧ q ≤ m ∧ t ≤ l ∧ p = (x.dom.node n r, y.dom.node m q, z.dom.node l t)

/-- The object as made by the constructor, except for the values of the coefficients and the calls made. -/
structure Built (s : CS3C) (F : List (ℝ × ℝ × ℝ) → ℝ × ℝ × ℝ → Res ℝ) (x y z : Seg ℝ) (n m l : Nat) : Prop where
  function : s.m_function = F
  fields : s.fields = ⟨n, m, l, x, y, z⟩
  shape : ∃ e : Nat × Nat × Nat → ℝ, s.coeffs = (List.range (l + 1)).map (fun k => ⟨n + 1, m + 1, fun i j => e (i, j, k)⟩)

theorem built_base (F : List (ℝ × ℝ × ℝ) → ℝ × ℝ × ℝ → Res ℝ) (x y z : Seg ℝ) (n m l : Nat) : (CS3C.base F x y z n m l).Built F x y z n m l :=
  ⟨rfl, rfl, fun _ => 0, by simp [CS3C.base, CS3.base, Mat.zero]⟩

theorem computeAijk_run (B : Build) {F : List (ℝ × ℝ × ℝ) → ℝ × ℝ × ℝ → Res ℝ} {f : ℝ × ℝ × ℝ → ℝ} (hF : FailsAtTimes F f) {x y z : Seg ℝ} {n m l : Nat} {s : CS3C}
    (hs : s.Built F x y z n m l) : ∃ o s' tr, (computeAijk B).run s = (o, s') ∧ s'.Built F x y z n m l ∧ s'.calls = s.calls ++ tr ∧
      (∀ p ∈ tr, Node x y z n m l p) ∧ 1 ≤ tr.length ∧ tr.length ≤ ((n + 1) * (m + 1) * (l + 1)) ^ 2 ∧
      (o = .ok () → tr.length = ((n + 1) * (m + 1) * (l + 1)) ^ 2 ∧
        (s.erase fun a b c => f (a, b, c)).computeAijk B = .ok (s'.erase fun a b c => f (a, b, c))) ∧
      (o ≠ .ok () → (tr.length = 1 → s'.coeffs = s.coeffs) ∧ ∃ t p, tr = t ++ [p] ∧ (F (s.calls ++ t) p >>= fun _ => .ok ()) = o) := by
  obtain ⟨h1, h2, e, he⟩ := hs
  rcases s with ⟨F', ⟨n', m', l', x', y', z'⟩, c, cs⟩
  simp only [Fields3.mk.injEq] at h1 h2 he
  obtain ⟨rfl, rfl, rfl, rfl, rfl, rfl⟩ := h2
  subst h1
  let S := cubeStore ℝ B (n' + 1) (m' + 1) (l' + 1)
  have key : Step (R := Fields3) F' (fun c => ∃ e, c = S.rep e) (Node x' y' z' n' m' l')
      ((n' + 1) * ((m' + 1) * ((l' + 1) * ((n' + 1) * ((m' + 1) * ((l' + 1) * 1))))))
      (Act.loop 0 (n' + 1) (fun i =>
        Act.loop 0 (m' + 1) (fun j =>
          Act.loop 0 (l' + 1) (fun k => do
            Act.loop 0 (n' + 1) (fun r => do
              let xr ← Act.lift (vAt ((List.range (n' + 1)).map (fun r => (chebNode n' r, x'.dom.node n' r))) r)
              Act.loop 0 (m' + 1) (fun q => do
                let yq ← Act.lift (vAt ((List.range (m' + 1)).map (fun r => (chebNode m' r, y'.dom.node m' r))) q)
                Act.loop 0 (l' + 1) (fun t => do
                  let zt ← Act.lift (vAt ((List.range (l' + 1)).map (fun r => (chebNode l' r, z'.dom.node l' r))) t)
                  let v ← call (xr.2, yq.2, zt.2)
                  modify fun aijk => do
                    let a ← cubeGet B aijk i j k
                    cubeSet B aijk i j k (a + v * chebT i xr.1 * chebT j yq.1 * chebT k zt.1))))
            modify fun aijk => do
              let a ← cubeGet B aijk i j k
              cubeSet B aijk i j k (a * (8 / (((n' : ℝ) + 1) * ((m' : ℝ) + 1) * ((l' : ℝ) + 1))))
            if i = 0 ∧ j = 0 ∧ k = 0 then
              modify fun aijk => do
                let a ← cubeGet B aijk i j k
                cubeSet B aijk i j k (a / 8)
            else if (i = 0 ∧ j ≠ 0 ∧ k = 0) ∨ (i ≠ 0 ∧ j = 0 ∧ k = 0) ∨ (i = 0 ∧ j = 0 ∧ k ≠ 0) then
              modify fun aijk => do
                let a ← cubeGet B aijk i j k
                cubeSet B aijk i j k (a / 4)
            else if (i = 0 ∧ j ≠ 0 ∧ k ≠ 0) ∨ (i ≠ 0 ∧ j = 0 ∧ k ≠ 0) ∨ (i ≠ 0 ∧ j ≠ 0 ∧ k = 0) then
              modify fun aijk => do
                let a ← cubeGet B aijk i j k
                cubeSet B aijk i j k (a / 2)
            else pure ()))))
      (fun aijk => forRange 0 (n' + 1) (fun i aijk =>
        forRange 0 (m' + 1) (fun j aijk =>
          forRange 0 (l' + 1) (fun k aijk => do
            let aijk ← forRange 0 (n' + 1) (fun r aijk => do
              let xr ← vAt ((List.range (n' + 1)).map (fun r => (chebNode n' r, x'.dom.node n' r))) r
              forRange 0 (m' + 1) (fun q aijk => do
                let yq ← vAt ((List.range (m' + 1)).map (fun r => (chebNode m' r, y'.dom.node m' r))) q
                forRange 0 (l' + 1) (fun t aijk => do
                  let zt ← vAt ((List.range (l' + 1)).map (fun r => (chebNode l' r, z'.dom.node l' r))) t
                  let a ← cubeGet B aijk i j k
                  cubeSet B aijk i j k (a + f (xr.2, yq.2, zt.2) * chebT i xr.1 * chebT j yq.1 * chebT k zt.1)) aijk) aijk) aijk
            let a ← cubeGet B aijk i j k
            let aijk ← cubeSet B aijk i j k
              (a * (8 / (((n' : ℝ) + 1) * ((m' : ℝ) + 1) * ((l' : ℝ) + 1))))
            if i = 0 ∧ j = 0 ∧ k = 0 then do
              let a ← cubeGet B aijk i j k
              cubeSet B aijk i j k (a / 8)
            else if (i = 0 ∧ j ≠ 0 ∧ k = 0) ∨ (i ≠ 0 ∧ j = 0 ∧ k = 0) ∨ (i = 0 ∧ j = 0 ∧ k ≠ 0) then do
              let a ← cubeGet B aijk i j k
              cubeSet B aijk i j k (a / 4)
            else if (i = 0 ∧ j ≠ 0 ∧ k ≠ 0) ∨ (i ≠ 0 ∧ j = 0 ∧ k ≠ 0) ∨ (i ≠ 0 ∧ j ≠ 0 ∧ k = 0) then do
              let a ← cubeGet B aijk i j k
              cubeSet B aijk i j k (a / 2)
            else return aijk) aijk) aijk) aijk) := by
    refine Step.loop fun i hi => Step.loop fun j hj => Step.loop fun k hk => ?_
    have hv : S.valid (i, j, k) := ⟨hi, hj, hk⟩
    refine Step.tail (Step.loop fun r hr => ?_) (Tail.modify_then S hv _ (Tail.ite (Tail.modify S hv (fun a => a / 8))
      (Tail.ite (Tail.modify S hv (fun a => a / 4)) (Tail.ite (Tail.modify S hv (fun a => a / 2)) Tail.pure_))))
    refine Step.lift_then (vAt_map _ hr) (Step.loop fun q hq => ?_)
    refine Step.lift_then (vAt_map _ hq) (Step.loop fun t ht => ?_)
    refine Step.lift_then (vAt_map _ ht) ?_
    exact Step.call_then hF ⟨r, q, t, by omega, by omega, by omega, rfl⟩ (h := fun v c => S.get c (i, j, k) >>= fun a => S.set c (i, j, k)
      (a + v * chebT i (chebNode n' r) * chebT j (chebNode m' q) * chebT k (chebNode l' t))) fun v => Tail.modify S hv _
  obtain ⟨o, s', tr, k1, k2, k3, ⟨e', k4⟩, k5, k6, k7, k8, k9, k10⟩ := key ⟨F', ⟨n', m', l', x', y', z'⟩, c, cs⟩ rfl ⟨e, he⟩
  have hN : (n' + 1) * ((m' + 1) * ((l' + 1) * ((n' + 1) * ((m' + 1) * ((l' + 1) * 1))))) = ((n' + 1) * (m' + 1) * (l' + 1)) ^ 2 := by ring
  rw [hN] at k8 k9
  refine ⟨o, s', tr, ?_, ⟨k2, k3, e', k4⟩, k5, k6, k7, k8, fun ho => ⟨(k9 ho).1, ?_⟩, k10⟩
  · rw [← k1]
    unfold computeAijk
    rw [Act.run_get_bind]
    simp only [abscissae_ok, Act.run_lift_ok_bind]
  · unfold CS3.computeAijk
    have e1 := (k9 ho).2
    simp only [abscissae_ok, Res.ok_bind, erase] at e1 ⊢
    rw [e1, k3]
    rfl

end CS3C

/-- One method called again and again on the same object, with the outcomes given. -/
def Spec.After {σ : Type} (m : Act σ Unit) : List (Res Unit) → σ → σ → Prop
  | [], s, s' => s' = s
  | o :: os, s, s' => ∃ s₁, m.run s = (o, s₁) ∧ Spec.After m os s₁ s'

/-! ## C174 in two variables -/

theorem CS2C.after_built (B : Build) {F : List (ℝ × ℝ) → ℝ × ℝ → Res ℝ} {f : ℝ × ℝ → ℝ} (hF : FailsAtTimes F f) {x y : Seg ℝ} {n m : Nat} (os : List (Res Unit)) :
    ∀ {s s' : CS2C}, s.Built F x y n m → Spec.After (CS2C.computeAij B) os s s' → s'.Built F x y n m := by
  induction os with
  | nil =>
    rintro s s' h rfl
    exact h
  | cons o os ih =>
    rintro s s' h ⟨s₁, h1, h2⟩
    obtain ⟨o', s₁', tr, k1, k2, -⟩ := CS2C.computeAij_run B hF h
    rw [h1] at k1
    injection k1 with _ k1
    subst k1
    exact ih k2 h2

/-- C174, what holds: when the first computation of a series returns, the coefficients are those of the function. -/
theorem C174_first_2d_partial (B : Build) {F : List (ℝ × ℝ) → ℝ × ℝ → Res ℝ} {f : ℝ × ℝ → ℝ} (hF : FailsAtTimes F f) (x y : Seg ℝ) (n m : Nat) {s' : CS2C}
    (h : (CS2C.computeAij B).run (CS2C.base F x y n m) = (.ok (), s')) :
    (CS2.base (fun a b => f (a, b)) x y n m).computeAij B = .ok (s'.erase fun a b => f (a, b)) := by
  obtain ⟨o, s₁, tr, h1, -, -, -, -, -, h2, -⟩ := CS2C.computeAij_run B hF (CS2C.built_base F x y n m)
  rw [h] at h1
  injection h1 with e1 e2
  subst e2
  exact (h2 e1.symm).2

/-- C174: when no call of the function fails, every computation returns, whatever was called before. -/
theorem C174_returns_2d (B : Build) {F : List (ℝ × ℝ) → ℝ × ℝ → Res ℝ} {f : ℝ × ℝ → ℝ} (hF : ∀ tr p, F tr p = .ok (f p)) (x y : Seg ℝ) (n m : Nat) {os : List (Res Unit)} {s : CS2C}
    (hs : Spec.After (CS2C.computeAij B) os (CS2C.base F x y n m) s) : ∃ s', (CS2C.computeAij B).run s = (.ok (), s') := by
  have hF' : FailsAtTimes F f := fun tr p y h => by rw [hF] at h; injection h with h; exact h.symm
  obtain ⟨o, s₁, tr, h1, -, -, -, -, -, -, h2⟩ := CS2C.computeAij_run B hF' (CS2C.after_built B hF' os (CS2C.built_base F x y n m) hs)
  by_cases ho : o = .ok ()
  · subst ho
    exact ⟨s₁, h1⟩
  · obtain ⟨-, t, p, -, e⟩ := h2 ho
    rw [hF] at e
    exact absurd e.symm ho

/-- C174, the calls: after any computations, successful or not, a computation calls the function at the nodes only; it makes `((n + 1) * (m + 1)) ^ 2` calls when it
returns, and no more otherwise; when it does not return the last call of the function is the one that failed, and its exception comes out unchanged. -/
theorem C174_calls_2d (B : Build) {F : List (ℝ × ℝ) → ℝ × ℝ → Res ℝ} {f : ℝ × ℝ → ℝ} (hF : FailsAtTimes F f) (x y : Seg ℝ) (n m : Nat) {os : List (Res Unit)} {s s' : CS2C} {o : Res Unit}
    (hs : Spec.After (CS2C.computeAij B) os (CS2C.base F x y n m) s) (h : (CS2C.computeAij B).run s = (o, s')) :
    ∃ tr, s'.calls = s.calls ++ tr ∧ (∀ p ∈ tr, ∃ r t, r ≤ n ∧ t ≤ m ∧ p = (x.dom.node n r, y.dom.node m t)) ∧
      1 ≤ tr.length ∧ tr.length ≤ ((n + 1) * (m + 1)) ^ 2 ∧ (o = .ok () → tr.length = ((n + 1) * (m + 1)) ^ 2) ∧
      (o ≠ .ok () → ∃ t p, tr = t ++ [p] ∧ (F (s.calls ++ t) p >>= fun _ => .ok ()) = o) := by
  obtain ⟨o', s₁, tr, h1, -, h2, h3, h4, h5, h6, h7⟩ := CS2C.computeAij_run B hF (CS2C.after_built B hF os (CS2C.built_base F x y n m) hs)
  rw [h] at h1
  injection h1 with e1 e2
  subst e1 e2
  exact ⟨tr, h2, h3, h4, h5, fun ho => (h6 ho).1, fun ho => (h7 ho).2⟩

/-- C174, when it holds: after any computations, successful or not, a computation that returns gives the coefficients of the function if and only if the coefficients
were all zero before it. -/
theorem C174_exact_2d_partial (B : Build) {F : List (ℝ × ℝ) → ℝ × ℝ → Res ℝ} {f : ℝ × ℝ → ℝ} (hF : FailsAtTimes F f) (x y : Seg ℝ) (n m : Nat) {os : List (Res Unit)} {s₁ s₂ : CS2C}
    (hs : Spec.After (CS2C.computeAij B) os (CS2C.base F x y n m) s₁) (h : (CS2C.computeAij B).run s₁ = (.ok (), s₂)) :
    ∃ t, (CS2.base (fun a b => f (a, b)) x y n m).computeAij B = .ok t ∧
      ((∀ i j, i ≤ n → j ≤ m → s₂.coeffs.entry i j = t.m_aij.entry i j) ↔
        ∀ i j, i ≤ n → j ≤ m → s₁.coeffs.entry i j = 0) := by
  have hb := CS2C.after_built B hF os (CS2C.built_base F x y n m) hs
  obtain ⟨o, s₂', tr, h1, hb2, -, -, -, -, h2, -⟩ := CS2C.computeAij_run B hF hb
  rw [h] at h1
  injection h1 with e1 e2
  subst e2
  have h3 := (h2 e1.symm).2
  obtain ⟨t, ht, hh⟩ := CS2.computeAij_ok B (CS2.fresh_holds (fun a b => f (a, b)) n m x y)
  refine ⟨t, ht, ?_⟩
  have hheld : (s₁.erase (fun a b => f (a, b))).Holds (fun a b => f (a, b)) n m x y (fun p => s₁.coeffs.entry p.1 p.2) := by
    obtain ⟨k1, k2, k3, k4⟩ := hb
    refine ⟨rfl, ?_, ?_, ?_, ?_, fun p => s₁.coeffs.entry p.1 p.2, ?_, fun _ _ _ _ => rfl⟩
    · exact congrArg Fields2.m_order_x k2
    · exact congrArg Fields2.m_order_y k2
    · exact congrArg Fields2.m_x k2
    · exact congrArg Fields2.m_y k2
    · show s₁.coeffs = ⟨n + 1, m + 1, fun i j => s₁.coeffs.entry i j⟩
      rw [← k3, ← k4]
  obtain ⟨t', ht', hh'⟩ := CS2.computeAij_ok B hheld
  rw [h3] at ht'
  injection ht' with ht'
  subst ht'
  obtain ⟨e, he, hev⟩ := hh.coeffs
  obtain ⟨e', he', hev'⟩ := hh'.coeffs
  have he'' : s₂.coeffs = ⟨n + 1, m + 1, fun i j => e' (i, j)⟩ := he'
  have key : ∀ i j, i ≤ n → j ≤ m → (s₂.coeffs.entry i j = t.m_aij.entry i j ↔ s₁.coeffs.entry i j = 0) := by
    intro i j hi hj
    rw [he'', he]
    show e' (i, j) = e (i, j) ↔ _
    rw [hev i j (by omega) (by omega), hev' i j (by omega) (by omega)]
    unfold CS2.next
    have hw := mul_pos (chebWeight_pos n i) (chebWeight_pos m j)
    constructor
    · intro e1
      have := mul_right_cancel₀ hw.ne' e1
      linarith
    · intro e1
      simp only [e1]
  exact ⟨fun hr i j hi hj => (key i j hi hj).1 (hr i j hi hj), fun hr i j hi hj => (key i j hi hj).2 (hr i j hi hj)⟩

/-- C174, the harmless failures: after any number of computations that each stopped at their very first call of the function, a computation that returns gives the
coefficients of the function. -/
theorem C174_first_call_2d_partial (B : Build) {F : List (ℝ × ℝ) → ℝ × ℝ → Res ℝ} {f : ℝ × ℝ → ℝ} (hF : FailsAtTimes F f) (x y : Seg ℝ) (n m : Nat) {os : List (Res Unit)} {s₁ s₂ : CS2C}
    (hs : Spec.After (CS2C.computeAij B) os (CS2C.base F x y n m) s₁) (ho : ∀ o ∈ os, o ≠ .ok ()) (hc : s₁.calls.length = os.length)
    (h : (CS2C.computeAij B).run s₁ = (.ok (), s₂)) : (CS2.base (fun a b => f (a, b)) x y n m).computeAij B = .ok (s₂.erase fun a b => f (a, b)) := by
  have key : ∀ (os : List (Res Unit)) (s s₁ : CS2C), s.Built F x y n m → Spec.After (CS2C.computeAij B) os s s₁ → (∀ o ∈ os, o ≠ .ok ()) →
      s.calls.length + os.length ≤ s₁.calls.length ∧ (s₁.calls.length = s.calls.length + os.length → s₁.coeffs = s.coeffs) := by
    intro os
    induction os with
    | nil =>
      rintro s s₁ - rfl -
      exact ⟨by simp, fun _ => rfl⟩
    | cons o os ih =>
      rintro s s₁ hb ⟨s', h1, h2⟩ ho
      obtain ⟨o', s'', tr, k1, k2, k3, -, k4, -, -, k5⟩ := CS2C.computeAij_run B hF hb
      rw [h1] at k1
      injection k1 with e1 e2
      subst e1 e2
      obtain ⟨k6, -⟩ := k5 (ho o (by simp))
      obtain ⟨k7, k8⟩ := ih s' s₁ k2 h2 fun o' h' => ho o' (List.mem_cons_of_mem _ h')
      rw [k3, List.length_append] at k7 k8
      rw [List.length_cons]
      refine ⟨by omega, fun h' => ?_⟩
      rw [k8 (by omega), k6 (by omega)]
  have hb0 := CS2C.built_base F x y n m
  have hb := CS2C.after_built B hF os hb0 hs
  have e0 := (key os _ s₁ hb0 hs ho).2 (by rw [hc]; simp [CS2C.base])
  obtain ⟨o, s₂', tr, h1, -, -, -, -, -, h2, -⟩ := CS2C.computeAij_run B hF hb
  rw [h] at h1
  injection h1 with e1 e2
  subst e2
  rw [← (h2 e1.symm).2]
  congr 1
  unfold CS2C.erase
  rw [e0, hb.fields]
  rfl

/-! ## C174 in three variables -/

theorem CS3C.after_built (B : Build) {F : List (ℝ × ℝ × ℝ) → ℝ × ℝ × ℝ → Res ℝ} {f : ℝ × ℝ × ℝ → ℝ} (hF : FailsAtTimes F f) {x y z : Seg ℝ} {n m l : Nat} (os : List (Res Unit)) :
    ∀ {s s' : CS3C}, s.Built F x y z n m l → Spec.After (CS3C.computeAijk B) os s s' → s'.Built F x y z n m l := by
  induction os with
  | nil =>
    rintro s s' h rfl
    exact h
  | cons o os ih =>
    rintro s s' h ⟨s₁, h1, h2⟩
    obtain ⟨o', s₁', tr, k1, k2, -⟩ := CS3C.computeAijk_run B hF h
    rw [h1] at k1
    injection k1 with _ k1
    subst k1
    exact ih k2 h2

/-- C174, what holds: when the first computation of a series returns, the coefficients are those of the function. -/
theorem C174_first_3d_partial (B : Build) {F : List (ℝ × ℝ × ℝ) → ℝ × ℝ × ℝ → Res ℝ} {f : ℝ × ℝ × ℝ → ℝ} (hF : FailsAtTimes F f) (x y z : Seg ℝ) (n m l : Nat) {s' : CS3C}
    (h : (CS3C.computeAijk B).run (CS3C.base F x y z n m l) = (.ok (), s')) :
    (CS3.base (fun a b c => f (a, b, c)) x y z n m l).computeAijk B = .ok (s'.erase fun a b c => f (a, b, c)) := by
  obtain ⟨o, s₁, tr, h1, -, -, -, -, -, h2, -⟩ := CS3C.computeAijk_run B hF (CS3C.built_base F x y z n m l)
  rw [h] at h1
  injection h1 with e1 e2
  subst e2
  exact (h2 e1.symm).2

/-- C174: when no call of the function fails, every computation returns, whatever was called before. -/
theorem C174_returns_3d (B : Build) {F : List (ℝ × ℝ × ℝ) → ℝ × ℝ × ℝ → Res ℝ} {f : ℝ × ℝ × ℝ → ℝ} (hF : ∀ tr p, F tr p = .ok (f p)) (x y z : Seg ℝ) (n m l : Nat) {os : List (Res Unit)} {s : CS3C}
    (hs : Spec.After (CS3C.computeAijk B) os (CS3C.base F x y z n m l) s) : ∃ s', (CS3C.computeAijk B).run s = (.ok (), s') := by
  have hF' : FailsAtTimes F f := fun tr p y h => by rw [hF] at h; injection h with h; exact h.symm
  obtain ⟨o, s₁, tr, h1, -, -, -, -, -, -, h2⟩ := CS3C.computeAijk_run B hF' (CS3C.after_built B hF' os (CS3C.built_base F x y z n m l) hs)
  by_cases ho : o = .ok ()
  · subst ho
    exact ⟨s₁, h1⟩
  · obtain ⟨-, t, p, -, e⟩ := h2 ho
    rw [hF] at e
    exact absurd e.symm ho

/-- C174, the calls: after any computations, successful or not, a computation calls the function at the nodes only; it makes `((n + 1) * (m + 1) * (l + 1)) ^ 2` calls when it
returns, and no more otherwise; when it does not return the last call of the function is the one that failed, and its exception comes out unchanged. -/
theorem C174_calls_3d (B : Build) {F : List (ℝ × ℝ × ℝ) → ℝ × ℝ × ℝ → Res ℝ} {f : ℝ × ℝ × ℝ → ℝ} (hF : FailsAtTimes F f) (x y z : Seg ℝ) (n m l : Nat) {os : List (Res Unit)} {s s' : CS3C} {o : Res Unit}
    (hs : Spec.After (CS3C.computeAijk B) os (CS3C.base F x y z n m l) s) (h : (CS3C.computeAijk B).run s = (o, s')) :
    ∃ tr, s'.calls = s.calls ++ tr ∧ (∀ p ∈ tr, ∃ r q t, r ≤ n ∧ q ≤ m ∧ t ≤ l ∧ p = (x.dom.node n r, y.dom.node m q, z.dom.node l t)) ∧
      1 ≤ tr.length ∧ tr.length ≤ ((n + 1) * (m + 1) * (l + 1)) ^ 2 ∧ (o = .ok () → tr.length = ((n + 1) * (m + 1) * (l + 1)) ^ 2) ∧
      (o ≠ .ok () → ∃ t p, tr = t ++ [p] ∧ (F (s.calls ++ t) p >>= fun _ => .ok ()) = o) := by
  obtain ⟨o', s₁, tr, h1, -, h2, h3, h4, h5, h6, h7⟩ := CS3C.computeAijk_run B hF (CS3C.after_built B hF os (CS3C.built_base F x y z n m l) hs)
  rw [h] at h1
  injection h1 with e1 e2
  subst e1 e2
  exact ⟨tr, h2, h3, h4, h5, fun ho => (h6 ho).1, fun ho => (h7 ho).2⟩

/-- C174, when it holds: after any computations, successful or not, a computation that returns gives the coefficients of the function if and only if the coefficients
were all zero before it. -/
theorem C174_exact_3d_partial (B : Build) {F : List (ℝ × ℝ × ℝ) → ℝ × ℝ × ℝ → Res ℝ} {f : ℝ × ℝ × ℝ → ℝ} (hF : FailsAtTimes F f) (x y z : Seg ℝ) (n m l : Nat) {os : List (Res Unit)} {s₁ s₂ : CS3C}
    (hs : Spec.After (CS3C.computeAijk B) os (CS3C.base F x y z n m l) s₁) (h : (CS3C.computeAijk B).run s₁ = (.ok (), s₂)) :
    ∃ t, (CS3.base (fun a b c => f (a, b, c)) x y z n m l).computeAijk B = .ok t ∧
      ((∀ i j k, i ≤ n → j ≤ m → k ≤ l → s₂.coeffs[k]?.map (fun c => c.entry i j) = t.m_aijk[k]?.map (fun c => c.entry i j)) ↔
        ∀ i j k, i ≤ n → j ≤ m → k ≤ l → s₁.coeffs[k]?.map (fun c => c.entry i j) = some 0) := by
  have hb := CS3C.after_built B hF os (CS3C.built_base F x y z n m l) hs
  obtain ⟨o, s₂', tr, h1, hb2, -, -, -, -, h2, -⟩ := CS3C.computeAijk_run B hF hb
  rw [h] at h1
  injection h1 with e1 e2
  subst e2
  have h3 := (h2 e1.symm).2
  obtain ⟨t, ht, hh⟩ := CS3.computeAijk_ok B (CS3.fresh_holds (fun a b c => f (a, b, c)) n m l x y z)
  refine ⟨t, ht, ?_⟩
  obtain ⟨k1, k2, e0, k3⟩ := hb
  have hheld : (s₁.erase (fun a b c => f (a, b, c))).Holds (fun a b c => f (a, b, c)) n m l x y z e0 := by
    refine ⟨rfl, ?_, ?_, ?_, ?_, ?_, ?_, e0, k3, fun _ _ _ _ _ _ => rfl⟩
    · exact congrArg Fields3.m_order_x k2
    · exact congrArg Fields3.m_order_y k2
    · exact congrArg Fields3.m_order_z k2
    · exact congrArg Fields3.m_x k2
    · exact congrArg Fields3.m_y k2
    · exact congrArg Fields3.m_z k2
  obtain ⟨t', ht', hh'⟩ := CS3.computeAijk_ok B hheld
  rw [h3] at ht'
  injection ht' with ht'
  subst ht'
  obtain ⟨e, he, hev⟩ := hh.coeffs
  obtain ⟨e', he', hev'⟩ := hh'.coeffs
  have he'' : s₂.coeffs = (List.range (l + 1)).map (fun k => ⟨n + 1, m + 1, fun i j => e' (i, j, k)⟩) := he'
  have key : ∀ i j k, i ≤ n → j ≤ m → k ≤ l → (s₂.coeffs[k]?.map (fun c => c.entry i j) = t.m_aijk[k]?.map (fun c => c.entry i j) ↔
      s₁.coeffs[k]?.map (fun c => c.entry i j) = some 0) := by
    intro i j k hi hj hk
    rw [he'', he, k3]
    have hk' : k < l + 1 := by omega
    simp only [List.getElem?_map, List.getElem?_range hk', Option.map_some, Option.some.injEq]
    rw [hev i j k (by omega) (by omega) (by omega), hev' i j k (by omega) (by omega) (by omega)]
    unfold CS3.next
    have hw := mul_pos (mul_pos (chebWeight_pos n i) (chebWeight_pos m j)) (chebWeight_pos l k)
    constructor
    · intro e1
      have := mul_right_cancel₀ hw.ne' e1
      linarith
    · intro e1
      simp only [e1]
  exact ⟨fun hr i j k hi hj hk => (key i j k hi hj hk).1 (hr i j k hi hj hk), fun hr i j k hi hj hk => (key i j k hi hj hk).2 (hr i j k hi hj hk)⟩

/-- C174, the harmless failures: after any number of computations that each stopped at their very first call of the function, a computation that returns gives the
coefficients of the function. -/
theorem C174_first_call_3d_partial (B : Build) {F : List (ℝ × ℝ × ℝ) → ℝ × ℝ × ℝ → Res ℝ} {f : ℝ × ℝ × ℝ → ℝ} (hF : FailsAtTimes F f) (x y z : Seg ℝ) (n m l : Nat) {os : List (Res Unit)} {s₁ s₂ : CS3C}
    (hs : Spec.After (CS3C.computeAijk B) os (CS3C.base F x y z n m l) s₁) (ho : ∀ o ∈ os, o ≠ .ok ()) (hc : s₁.calls.length = os.length)
    (h : (CS3C.computeAijk B).run s₁ = (.ok (), s₂)) : (CS3.base (fun a b c => f (a, b, c)) x y z n m l).computeAijk B = .ok (s₂.erase fun a b c => f (a, b, c)) := by
  have key : ∀ (os : List (Res Unit)) (s s₁ : CS3C), s.Built F x y z n m l → Spec.After (CS3C.computeAijk B) os s s₁ → (∀ o ∈ os, o ≠ .ok ()) →
      s.calls.length + os.length ≤ s₁.calls.length ∧ (s₁.calls.length = s.calls.length + os.length → s₁.coeffs = s.coeffs) := by
    intro os
    induction os with
    | nil =>
      rintro s s₁ - rfl -
      exact ⟨by simp, fun _ => rfl⟩
    | cons o os ih =>
      rintro s s₁ hb ⟨s', h1, h2⟩ ho
      obtain ⟨o', s'', tr, k1, k2, k3, -, k4, -, -, k5⟩ := CS3C.computeAijk_run B hF hb
      rw [h1] at k1
      injection k1 with e1 e2
      subst e1 e2
      obtain ⟨k6, -⟩ := k5 (ho o (by simp))
      obtain ⟨k7, k8⟩ := ih s' s₁ k2 h2 fun o' h' => ho o' (List.mem_cons_of_mem _ h')
      rw [k3, List.length_append] at k7 k8
      rw [List.length_cons]
      refine ⟨by omega, fun h' => ?_⟩
      rw [k8 (by omega), k6 (by omega)]
  have hb0 := CS3C.built_base F x y z n m l
  have hb := CS3C.after_built B hF os hb0 hs
  have e0 := (key os _ s₁ hb0 hs ho).2 (by rw [hc]; simp [CS3C.base])
  obtain ⟨o, s₂', tr, h1, -, -, -, -, -, h2, -⟩ := CS3C.computeAijk_run B hF hb
  rw [h] at h1
  injection h1 with e1 e2
  subst e2
  rw [← (h2 e1.symm).2]
  congr 1
  unfold CS3C.erase
  rw [e0, hb.fields]
  rfl

/-! ## It is false, and the hypotheses are met -/

/-- The function 1, whose call number `k` (from 0) throws. -/
def throwsAt {P : Type} (k : Nat) : List P → P → Res ℝ := fun tr _ => if tr.length = k then .throws .runtimeError else .ok 1

theorem throwsAt_fails {P : Type} (k : Nat) : FailsAtTimes (throwsAt (P := P) k) (fun _ => 1) := fun tr p y h => by
  unfold throwsAt at h
  split at h
  · cases h
  · injection h with h
    exact h.symm

theorem run_call {P R C : Type} (p : P) (s : SeriesC P R C) :
    (SeriesC.call p : Act (SeriesC P R C) ℝ).run s = (s.m_function s.calls p, { s with calls := s.calls ++ [p] }) := rfl

theorem chebNode_one_one : chebNode 1 1 = -chebNode 1 0 := by
  unfold chebNode
  rw [← Real.cos_pi_sub]
  congr 1
  push_cast
  ring

/-- C174 is false in two variables: with the function 1, of which the second call throws, the first `Compute_aij` of a series of orders 1 and 0 throws, the second
returns, and the series is 3/2 everywhere. -/
theorem C174_refuted (B : Build) : ∃ s₁ s₂, (CS2C.computeAij B).run (CS2C.base (throwsAt 1) (.closed 0 1) (.closed 0 1) 1 0) = (.throws .runtimeError, s₁) ∧
    (CS2C.computeAij B).run s₁ = (.ok (), s₂) ∧ ∀ x y, (s₂.erase (fun _ _ => 1)).evaluate B x y = .ok (3 / 2) := by
  have hF := throwsAt_fails (P := ℝ × ℝ) 1
  have hrun : ∃ s₁, (CS2C.computeAij B).run (CS2C.base (throwsAt 1) (.closed 0 1) (.closed 0 1) 1 0) = (.throws .runtimeError, s₁) ∧ s₁.coeffs.entry 0 0 = 1 ∧
      s₁.coeffs.entry 1 0 = 0 ∧ s₁.calls.length = 2 := by
    unfold CS2C.computeAij
    rw [Act.run_get_bind, abscissae_ok, Act.run_lift_ok_bind, abscissae_ok, Act.run_lift_ok_bind]
    simp [CS2C.base, Act.loop, Act.loopN, Act.run_bind, run_call, SeriesC.modify, throwsAt, vAt, Mat.at', Mat.set, chebT, List.range_succ]
  obtain ⟨s₁, h1, ha, hb, hc⟩ := hrun
  have hbuilt := CS2C.after_built B hF [.throws .runtimeError] (CS2C.built_base (throwsAt 1) (.closed 0 1) (.closed 0 1) 1 0) ⟨s₁, h1, rfl⟩
  obtain ⟨o, s₂, tr, h2, hbuilt2, -, -, -, -, h3, h4⟩ := CS2C.computeAij_run B hF hbuilt
  have ho : o = .ok () := by
    by_contra ho
    obtain ⟨-, t, p, -, e⟩ := h4 ho
    rw [throwsAt, if_neg (by rw [List.length_append, hc]; omega)] at e
    exact ho e.symm
  subst ho
  refine ⟨s₁, s₂, h1, h2, fun x y => ?_⟩
  have hheld : (s₁.erase (fun _ _ => 1)).Holds (fun _ _ => 1) 1 0 (.closed 0 1) (.closed 0 1) (fun p => if p = (0, 0) then 1 else 0) := by
    obtain ⟨k1, k2, k3, k4⟩ := hbuilt
    refine ⟨rfl, ?_, ?_, ?_, ?_, fun p => s₁.coeffs.entry p.1 p.2, ?_, fun i j hi hj => ?_⟩
    · exact congrArg Fields2.m_order_x k2
    · exact congrArg Fields2.m_order_y k2
    · exact congrArg Fields2.m_x k2
    · exact congrArg Fields2.m_y k2
    · show s₁.coeffs = ⟨1 + 1, 0 + 1, fun i j => s₁.coeffs.entry i j⟩
      rw [← k3, ← k4]
    · obtain rfl : j = 0 := by omega
      interval_cases i
      · simp [ha]
      · simp [hb]
  obtain ⟨t, ht, hh⟩ := CS2.computeAij_ok B hheld
  rw [(h3 rfl).2] at ht
  injection ht with ht
  rw [ht, CS2.evaluate_ok B hh (by simp [Seg.dom, Domain.Defined]) (by simp [Seg.dom, Domain.Defined])]
  norm_num [cheb2, CS2.next, chebWeight, chebT, sum_range_succ, sum_Ico_succ_top, chebNode_one_one]

/-- C174 is false in three variables, with the same function and the orders 1, 0 and 0. -/
theorem C174_refuted_3d (B : Build) : ∃ s₁ s₂, (CS3C.computeAijk B).run (CS3C.base (throwsAt 1) (.closed 0 1) (.closed 0 1) (.closed 0 1) 1 0 0) =
      (.throws .runtimeError, s₁) ∧
    (CS3C.computeAijk B).run s₁ = (.ok (), s₂) ∧ ∀ x y z, (s₂.erase (fun _ _ _ => 1)).evaluate B x y z = .ok (3 / 2) := by
  have hF := throwsAt_fails (P := ℝ × ℝ × ℝ) 1
  have hrun : ∃ s₁, (CS3C.computeAijk B).run (CS3C.base (throwsAt 1) (.closed 0 1) (.closed 0 1) (.closed 0 1) 1 0 0) = (.throws .runtimeError, s₁) ∧
      s₁.coeffs[0]?.map (fun c => c.entry 0 0) = some 1 ∧ s₁.coeffs[0]?.map (fun c => c.entry 1 0) = some 0 ∧ s₁.calls.length = 2 := by
    unfold CS3C.computeAijk
    rw [Act.run_get_bind, abscissae_ok, Act.run_lift_ok_bind, abscissae_ok, Act.run_lift_ok_bind, abscissae_ok, Act.run_lift_ok_bind]
    simp [CS3C.base, CS3.base, Mat.zero, Act.loop, Act.loopN, Act.run_bind, run_call, SeriesC.modify, throwsAt, vAt, cubeGet, cubeSet, Mat.at', Mat.set, chebT, List.range_succ]
  obtain ⟨s₁, h1, ha, hb, hc⟩ := hrun
  have hbuilt := CS3C.after_built B hF [.throws .runtimeError] (CS3C.built_base (throwsAt 1) (.closed 0 1) (.closed 0 1) (.closed 0 1) 1 0 0) ⟨s₁, h1, rfl⟩
  obtain ⟨o, s₂, tr, h2, hbuilt2, -, -, -, -, h3, h4⟩ := CS3C.computeAijk_run B hF hbuilt
  have ho : o = .ok () := by
    by_contra ho
    obtain ⟨-, t, p, -, e⟩ := h4 ho
    rw [throwsAt, if_neg (by rw [List.length_append, hc]; omega)] at e
    exact ho e.symm
  subst ho
  refine ⟨s₁, s₂, h1, h2, fun x y z => ?_⟩
  have hheld : (s₁.erase (fun _ _ _ => 1)).Holds (fun _ _ _ => 1) 1 0 0 (.closed 0 1) (.closed 0 1) (.closed 0 1) (fun p => if p = (0, 0, 0) then 1 else 0) := by
    obtain ⟨k1, k2, e0, k3⟩ := hbuilt
    rw [k3] at ha hb
    simp at ha hb
    refine ⟨rfl, ?_, ?_, ?_, ?_, ?_, ?_, e0, k3, fun i j k hi hj hk => ?_⟩
    · exact congrArg Fields3.m_order_x k2
    · exact congrArg Fields3.m_order_y k2
    · exact congrArg Fields3.m_order_z k2
    · exact congrArg Fields3.m_x k2
    · exact congrArg Fields3.m_y k2
    · exact congrArg Fields3.m_z k2
    · obtain rfl : j = 0 := by omega
      obtain rfl : k = 0 := by omega
      interval_cases i
      · simp [ha]
      · simp [hb]
  obtain ⟨t, ht, hh⟩ := CS3.computeAijk_ok B hheld
  rw [(h3 rfl).2] at ht
  injection ht with ht
  rw [ht, CS3.evaluate_ok B hh (by simp [Seg.dom, Domain.Defined]) (by simp [Seg.dom, Domain.Defined]) (by simp [Seg.dom, Domain.Defined])]
  norm_num [cheb3, CS3.next, chebWeight, chebT, sum_range_succ, sum_Ico_succ_top, chebNode_one_one]

/-- A product at orders 3 and 2: the first `Compute_aij` returns with its coefficients, after 144 calls. -/
example (B : Build) : ∃ s', (CS2C.computeAij B).run (CS2C.base (fun _ p => .ok (p.1 * p.2)) (.closed 0 2) (.opened 1) 3 2) = (.ok (), s') ∧ s'.calls.length = 144 ∧
    (CS2.base (fun a b => a * b) (.closed 0 2) (.opened 1) 3 2).computeAij B = .ok (s'.erase fun a b => a * b) := by
  have hF : FailsAtTimes (P := ℝ × ℝ) (fun _ p => .ok (p.1 * p.2)) (fun p => p.1 * p.2) := fun tr p y h => by injection h with h; exact h.symm
  obtain ⟨s', h⟩ := C174_returns_2d B (F := fun _ p => .ok (p.1 * p.2)) (f := fun p => p.1 * p.2) (fun _ _ => rfl) (.closed 0 2) (.opened 1) 3 2 (os := []) rfl
  obtain ⟨tr, h1, -, -, -, h2, -⟩ := C174_calls_2d B hF (.closed 0 2) (.opened 1) 3 2 (os := []) rfl h
  exact ⟨s', h, by rw [h1, List.length_append, h2 rfl]; simp [CS2C.base], C174_first_2d_partial B hF (.closed 0 2) (.opened 1) 3 2 h⟩

/-- The same in three variables, at orders 1, 2 and 1. -/
example (B : Build) : ∃ s', (CS3C.computeAijk B).run (CS3C.base (fun _ p => .ok (p.1 * p.2.2)) (.closed 0 2) (.opened 1) (.closed 1 3) 1 2 1) = (.ok (), s') ∧
    s'.calls.length = 144 ∧ (CS3.base (fun a _ c => a * c) (.closed 0 2) (.opened 1) (.closed 1 3) 1 2 1).computeAijk B = .ok (s'.erase fun a _ c => a * c) := by
  have hF : FailsAtTimes (P := ℝ × ℝ × ℝ) (fun _ p => .ok (p.1 * p.2.2)) (fun p => p.1 * p.2.2) := fun tr p y h => by injection h with h; exact h.symm
  obtain ⟨s', h⟩ := C174_returns_3d B (F := fun _ p => .ok (p.1 * p.2.2)) (f := fun p => p.1 * p.2.2) (fun _ _ => rfl) (.closed 0 2) (.opened 1) (.closed 1 3) 1 2 1
    (os := []) rfl
  obtain ⟨tr, h1, -, -, -, h2, -⟩ := C174_calls_3d B hF (.closed 0 2) (.opened 1) (.closed 1 3) 1 2 1 (os := []) rfl h
  exact ⟨s', h, by rw [h1, List.length_append, h2 rfl]; simp [CS3C.base], C174_first_3d_partial B hF (.closed 0 2) (.opened 1) (.closed 1 3) 1 2 1 h⟩

/-- The function 1 whose first call throws: the first `Compute_aij` throws that exception, the second returns with the right coefficients. -/
example (B : Build) : ∃ s₁ s₂, (CS2C.computeAij B).run (CS2C.base (throwsAt 0) (.closed 0 1) (.opened 1) 4 3) = (.throws .runtimeError, s₁) ∧
    (CS2C.computeAij B).run s₁ = (.ok (), s₂) ∧ (CS2.base (fun _ _ => 1) (.closed 0 1) (.opened 1) 4 3).computeAij B = .ok (s₂.erase fun _ _ => 1) := by
  have hF := throwsAt_fails (P := ℝ × ℝ) 0
  have hb := CS2C.built_base (throwsAt 0) (.closed 0 1) (.opened 1) 4 3
  obtain ⟨s₁, h1, hc⟩ : ∃ s₁, (CS2C.computeAij B).run (CS2C.base (throwsAt 0) (.closed 0 1) (.opened 1) 4 3) = (.throws .runtimeError, s₁) ∧ s₁.calls.length = 1 := by
    unfold CS2C.computeAij
    rw [Act.run_get_bind, abscissae_ok, Act.run_lift_ok_bind, abscissae_ok, Act.run_lift_ok_bind]
    simp [CS2C.base, Act.loop, Act.loopN, Act.run_bind, run_call, throwsAt, vAt, List.range_succ]
  have hs : Spec.After (CS2C.computeAij B) [.throws .runtimeError] (CS2C.base (throwsAt 0) (.closed 0 1) (.opened 1) 4 3) s₁ := ⟨s₁, h1, rfl⟩
  obtain ⟨o, s₂, tr, h2, -, -, -, -, -, h3, h4⟩ := CS2C.computeAij_run B hF (CS2C.after_built B hF _ hb hs)
  have ho : o = .ok () := by
    by_contra ho
    obtain ⟨-, t, p, -, e⟩ := h4 ho
    rw [throwsAt, if_neg (by rw [List.length_append, hc]; omega)] at e
    exact ho e.symm
  subst ho
  exact ⟨s₁, s₂, h1, h2, C174_first_call_2d_partial B hF (.closed 0 1) (.opened 1) 4 3 hs (by simp) (by simp [hc]) h2⟩

end MU
