import Verif.Props.Threads

set_option linter.unusedSectionVars false

/-!
# Threads that use different fields
-/

namespace MU

/-- The fields are independent, and there are no others. -/
structure Layout.Lawful {σ : Type} (Λ : Layout σ) : Prop where
  get_set : ∀ (l : Λ.L) (v : Λ.V l) (s : σ), Λ.get l (Λ.set l v s) = v
  get_set_ne : ∀ (l l' : Λ.L) (v : Λ.V l) (s : σ), l' ≠ l → Λ.get l' (Λ.set l v s) = Λ.get l' s
  ext : ∀ s s' : σ, (∀ l, Λ.get l s = Λ.get l s') → s = s'

namespace Prog
variable {σ : Type} {Λ : Layout σ} {α β ι : Type} [DecidableEq ι]

/-- The method, run alone on `s`, reads fields of `R` and assigns fields of `W` only. -/
def Foot (R W : Λ.L → Prop) : Prog Λ α → σ → Prop
  | ret _, _ => True
  | read l k, s => R l ∧ Foot R W (k (Λ.get l s)) s
  | write l v p, s => W l ∧ Foot R W p (Λ.set l v s)

theorem foot_bind {R W : Λ.L → Prop} {s : σ} (p : Prog Λ α) (f : α → Prog Λ β) (hp : p.Foot R W s)
    (hf : ∀ a s', p.run s = (.ok a, s') → (f a).Foot R W s') : (p >>= f).Foot R W s := by
  show (p.bind f).Foot R W s
  induction p generalizing s with
  | ret r =>
    cases r with
    | ok a => exact hf a s rfl
    | _ => trivial
  | read l k ih => exact ⟨hp.1, ih _ hp.2 hf⟩
  | write l v p ih => exact ⟨hp.1, ih hp.2 hf⟩

/-- What a method does depends on the fields it uses only. -/
theorem foot_congr (hΛ : Λ.Lawful) {R W : Λ.L → Prop} (p : Prog Λ α) {s s1 : σ} (hp : p.Foot R W s)
    (h : ∀ l, R l ∨ W l → Λ.get l s1 = Λ.get l s) :
    p.Foot R W s1 ∧ (p.run s1).1 = (p.run s).1 ∧ (∀ l, R l ∨ W l → Λ.get l (p.run s1).2 = Λ.get l (p.run s).2) ∧
      ∀ l, ¬ W l → Λ.get l (p.run s1).2 = Λ.get l s1 := by
  induction p generalizing s s1 with
  | ret r => exact ⟨trivial, rfl, h, fun _ _ => rfl⟩
  | read l k ih =>
    have e := h l (Or.inl hp.1)
    obtain ⟨h1, h2, h3, h4⟩ := ih _ hp.2 h
    refine ⟨⟨hp.1, ?_⟩, ?_, ?_, ?_⟩
    · rw [e]; exact h1
    · show ((k (Λ.get l s1)).run s1).1 = _
      rw [e]; exact h2
    · show ∀ l', _ → Λ.get l' ((k (Λ.get l s1)).run s1).2 = _
      rw [e]; exact h3
    · show ∀ l', _ → Λ.get l' ((k (Λ.get l s1)).run s1).2 = _
      rw [e]; exact h4
  | write l v p ih =>
    have h' : ∀ l', R l' ∨ W l' → Λ.get l' (Λ.set l v s1) = Λ.get l' (Λ.set l v s) := by
      intro l' hl
      by_cases e : l' = l
      · subst e
        rw [hΛ.get_set, hΛ.get_set]
      · rw [hΛ.get_set_ne _ _ _ _ e, hΛ.get_set_ne _ _ _ _ e]
        exact h l' hl
    obtain ⟨h1, h2, h3, h4⟩ := ih hp.2 h'
    refine ⟨⟨hp.1, h1⟩, h2, h3, fun l' hl => ?_⟩
    have e : l' ≠ l := by
      rintro rfl
      exact hl hp.1
    exact (h4 l' hl).trans (hΛ.get_set_ne _ _ _ _ e)

end Prog

namespace Spec
variable {σ : Type} {Λ : Layout σ} {α ι : Type} [DecidableEq ι]

/-- The object after the threads of the list have run one after the other. -/
def afterAll (ts : ι → Prog Λ α) : List ι → σ → σ
  | [], s => s
  | i :: rest, s => afterAll ts rest ((ts i).run s).2

/-- Threads that may run at the same time on the object `s`. Whatever the order of their accesses there is no data race; a thread that has finished has
the result it has when it runs alone; and when all have finished, the results and the object are those of running them one after the other, in
whatever order. -/
def Serializable (ts : ι → Prog Λ α) (s : σ) : Prop :=
  ∀ ts' s', Reach (ts, s) (ts', s') → ¬ Race ts' ∧ (∀ i a, ts' i = .ret a → a = ((ts i).run s).1) ∧
    ∀ order : List ι, order.Nodup → (∀ i, i ∈ order) → (∀ i, ∃ a, ts' i = .ret a) →
      s' = afterAll ts order s ∧ ∀ before i rest, order = before ++ i :: rest → ts' i = .ret ((ts i).run (afterAll ts before s)).1

end Spec

namespace Prog
variable {σ : Type} {Λ : Layout σ} {α β ι : Type} [DecidableEq ι]

theorem foot_reach (hΛ : Λ.Lawful) (R W : ι → Λ.L → Prop) (s : σ) (ts : ι → Prog Λ α) (hf : ∀ i, (ts i).Foot (R i) (W i) s)
    (hd : ∀ i j l, i ≠ j → W i l → ¬ R j l ∧ ¬ W j l) (c : (ι → Prog Λ α) × σ) (hr : Reach (ts, s) c) :
    (∀ l, (∀ i, ¬ W i l) → Λ.get l c.2 = Λ.get l s) ∧
    ∀ i, ∃ t, (c.1 i).Foot (R i) (W i) t ∧ (c.1 i).run t = (ts i).run s ∧ ∀ l, R i l ∨ W i l → Λ.get l c.2 = Λ.get l t := by
  induction hr with
  | refl => exact ⟨fun _ _ => rfl, fun i => ⟨s, hf i, rfl, fun _ _ => rfl⟩⟩
  | tail hr t ih =>
    obtain ⟨h1, h2⟩ := ih
    cases t with
    | @read ts' s' i l k e =>
      refine ⟨h1, fun j => ?_⟩
      obtain ⟨t, f1, f2, f3⟩ := h2 j
      by_cases hj : j = i
      · subst hj
        rw [show (ts', s').1 j = _ from e] at f1 f2
        refine ⟨t, ?_, ?_, f3⟩
        · simp only [Function.update_self]
          rw [f3 l (Or.inl f1.1)]
          exact f1.2
        · simp only [Function.update_self]
          rw [f3 l (Or.inl f1.1)]
          exact f2
      · refine ⟨t, ?_, ?_, f3⟩ <;> simp only [Function.update_of_ne hj]
        · exact f1
        · exact f2
    | @write ts' s' i l v p e =>
      obtain ⟨t, f1, f2, f3⟩ := h2 i
      rw [show (ts', s').1 i = _ from e] at f1 f2
      refine ⟨fun l' hl' => ?_, fun j => ?_⟩
      · have : l' ≠ l := by
          rintro rfl
          exact hl' i f1.1
        exact (hΛ.get_set_ne _ _ _ _ this).trans (h1 l' hl')
      · by_cases hj : j = i
        · subst hj
          refine ⟨Λ.set l v t, ?_, ?_, fun l' hl' => ?_⟩
          · simp only [Function.update_self]
            exact f1.2
          · simp only [Function.update_self]
            exact f2
          · by_cases el : l' = l
            · subst el
              show Λ.get l' (Λ.set l' v s') = _
              rw [hΛ.get_set, hΛ.get_set]
            · show Λ.get l' (Λ.set l v s') = _
              rw [hΛ.get_set_ne _ _ _ _ el, hΛ.get_set_ne _ _ _ _ el]
              exact f3 l' hl'
        · obtain ⟨t', g1, g2, g3⟩ := h2 j
          refine ⟨t', ?_, ?_, fun l' hl' => ?_⟩
          · simp only [Function.update_of_ne hj]
            exact g1
          · simp only [Function.update_of_ne hj]
            exact g2
          · have el : l' ≠ l := by
              rintro rfl
              have := hd i j l' (Ne.symm hj) f1.1
              tauto
            show Λ.get l' (Λ.set l v s') = _
            rw [hΛ.get_set_ne _ _ _ _ el]
            exact g3 l' hl'

/-- Running the threads of a list one after the other: each acts on its own fields. -/
theorem foot_afterAll (hΛ : Λ.Lawful) (R W : ι → Λ.L → Prop) (s : σ) (ts : ι → Prog Λ α) (hf : ∀ i, (ts i).Foot (R i) (W i) s)
    (hd : ∀ i j l, i ≠ j → W i l → ¬ R j l ∧ ¬ W j l) (order : List ι) (hn : order.Nodup) (s1 : σ)
    (h0 : ∀ i ∈ order, ∀ l, R i l ∨ W i l → Λ.get l s1 = Λ.get l s) :
    (∀ i ∈ order, ∀ l, R i l ∨ W i l → Λ.get l (Spec.afterAll ts order s1) = Λ.get l ((ts i).run s).2) ∧
    (∀ l, (∀ i ∈ order, ¬ W i l) → Λ.get l (Spec.afterAll ts order s1) = Λ.get l s1) ∧
    ∀ before i rest, order = before ++ i :: rest → ((ts i).run (Spec.afterAll ts before s1)).1 = ((ts i).run s).1 := by
  induction order generalizing s1 with
  | nil =>
    refine ⟨by simp, fun _ _ => rfl, fun before i rest h => ?_⟩
    simp at h
  | cons j rest ih =>
    have hn' := List.nodup_cons.1 hn
    obtain ⟨c1, c2, c3, c4⟩ := foot_congr hΛ (ts j) (hf j) (h0 j (by simp))
    obtain ⟨i1, i2, i3⟩ := ih hn'.2 ((ts j).run s1).2 (by
      intro i hi l hl
      have hij : j ≠ i := by
        rintro rfl
        exact hn'.1 hi
      rw [c4 l (fun hw => by have := hd j i l hij hw; tauto)]
      exact h0 i (by simp [hi]) l hl)
    refine ⟨fun i hi l hl => ?_, fun l hl => ?_, fun before i rest' h => ?_⟩
    · rcases List.mem_cons.1 hi with rfl | hi
      · rw [← c3 l hl]
        exact i2 l (fun k hk hw => by
          have hki : k ≠ i := by
            rintro rfl
            exact hn'.1 hk
          have := hd k i l hki hw
          tauto)
      · exact i1 i hi l hl
    · refine (i2 l (fun k hk => hl k (by simp [hk]))).trans (c4 l (hl j (by simp)))
    · cases before with
      | nil =>
        simp only [List.nil_append, List.cons.injEq] at h
        obtain ⟨rfl, -⟩ := h
        exact c2
      | cons b before =>
        simp only [List.cons_append, List.cons.injEq] at h
        obtain ⟨rfl, h⟩ := h
        exact i3 before i rest' h

/-- Threads of which none assigns a field that another one uses. -/
theorem foot_serializable (hΛ : Λ.Lawful) (R W : ι → Λ.L → Prop) (s : σ) (ts : ι → Prog Λ α) (hf : ∀ i, (ts i).Foot (R i) (W i) s)
    (hd : ∀ i j l, i ≠ j → W i l → ¬ R j l ∧ ¬ W j l) : Spec.Serializable ts s := by
  intro ts' s' hr
  obtain ⟨h1, h2⟩ := foot_reach hΛ R W s ts hf hd _ hr
  have hres : ∀ i a, ts' i = .ret a → a = ((ts i).run s).1 := by
    intro i a e
    obtain ⟨t, f1, f2, f3⟩ := h2 i
    rw [show (ts', s').1 i = _ from e] at f2
    exact congrArg Prod.fst f2
  refine ⟨?_, hres, fun order hn ho hdone => ?_⟩
  · rintro ⟨i, j, hij, l, ⟨v, q, e⟩, hj⟩
    obtain ⟨t, f1, -, -⟩ := h2 i
    rw [show (ts', s').1 i = _ from e] at f1
    obtain ⟨t', g1, -, -⟩ := h2 j
    have := hd i j l hij f1.1
    rcases hj with ⟨k, e'⟩ | ⟨v', q', e'⟩
    · rw [show (ts', s').1 j = _ from e'] at g1
      exact this.1 g1.1
    · rw [show (ts', s').1 j = _ from e'] at g1
      exact this.2 g1.1
  · obtain ⟨a1, a2, a3⟩ := foot_afterAll hΛ R W s ts hf hd order hn s (fun _ _ _ _ => rfl)
    refine ⟨hΛ.ext _ _ (fun l => ?_), fun before i rest h => ?_⟩
    · by_cases hw : ∃ i, W i l
      · obtain ⟨i, hi⟩ := hw
        rw [a1 i (ho i) l (Or.inr hi)]
        obtain ⟨t, f1, f2, f3⟩ := h2 i
        obtain ⟨a, e⟩ := hdone i
        rw [show (ts', s').1 i = _ from e] at f2
        rw [← f2]
        exact f3 l (Or.inr hi)
      · have hw : ∀ i, ¬ W i l := fun i hi => hw ⟨i, hi⟩
        rw [a2 l (fun i _ => hw i)]
        exact h1 l hw
    · obtain ⟨a, e⟩ := hdone i
      rw [e, hres i a e, a3 before i rest h]

/-- The method, run alone on `s`, becomes `q` and the object `s'`. -/
inductive To : Prog Λ α → σ → Prog Λ α → σ → Prop where
  | refl (p : Prog Λ α) (s : σ) : To p s p s
  | read {l : Λ.L} {k : Λ.V l → Prog Λ α} {s : σ} {q : Prog Λ α} {s' : σ} (h : To (k (Λ.get l s)) s q s') : To (.read l k) s q s'
  | write {l : Λ.L} {v : Λ.V l} {p : Prog Λ α} {s : σ} {q : Prog Λ α} {s' : σ} (h : To p (Λ.set l v s) q s') : To (.write l v p) s q s'

theorem To.reach {p q : Prog Λ α} {s s' : σ} (h : To p s q s') (ts : ι → Prog Λ α) (i : ι) (hi : ts i = p) :
    Reach (ts, s) (Function.update ts i q, s') := by
  induction h generalizing ts with
  | refl p s =>
    subst hi
    rw [Function.update_eq_self]
    exact .refl _
  | @read l k s q s' h ih =>
    have h1 := Reach.tail (.refl (ts, s)) (Step.read hi)
    have h2 := ih (Function.update ts i (k (Λ.get l s))) (Function.update_self ..)
    rw [Function.update_idem] at h2
    exact h1.trans h2
  | @write l v p s q s' h ih =>
    have h1 := Reach.tail (.refl (ts, s)) (Step.write hi)
    have h2 := ih (Function.update ts i p) (Function.update_self ..)
    rw [Function.update_idem] at h2
    exact h1.trans h2

/-- Two methods: one reads until it is about to access `l`, then the other one goes on until it is about to access `l`; one of the two accesses is an
assignment. -/
theorem race_of {p q p' q' : Prog Λ α} {s s' : σ} (l : Λ.L) (hp : To p s p' s) (hq : To q s q' s')
    (h : p'.Writes l ∧ q'.Accesses l ∨ q'.Writes l ∧ p'.Accesses l) (i j : ι) (hij : i ≠ j) (ts : ι → Prog Λ α) (hi : ts i = p) (hj : ts j = q) :
    ∃ ts' t, Reach (ts, s) (ts', t) ∧ Race ts' := by
  have h1 := hp.reach ts i hi
  have h2 := hq.reach (Function.update ts i p') j (by rw [Function.update_of_ne hij.symm]; exact hj)
  refine ⟨_, _, h1.trans h2, ?_⟩
  have ei : Function.update (Function.update ts i p') j q' i = p' := by
    rw [Function.update_of_ne hij, Function.update_self]
  have ej : Function.update (Function.update ts i p') j q' j = q' := Function.update_self ..
  rcases h with ⟨a, b⟩ | ⟨a, b⟩
  · exact ⟨i, j, hij, l, by rw [ei]; exact a, by rw [ej]; exact b⟩
  · exact ⟨j, i, hij.symm, l, by rw [ej]; exact a, by rw [ei]; exact b⟩

/-- The method, run alone on `s`, comes to a point of `P`. -/
def Gets (P : Prog Λ α → Prop) (p : Prog Λ α) (s : σ) : Prop := ∃ q s', To p s q s' ∧ P q

/-- The method, run alone on `s`, comes to a point of `P` after reads only. -/
def GetsR (P : Prog Λ α → Prop) (p : Prog Λ α) (s : σ) : Prop := ∃ q, To p s q s ∧ P q

theorem Gets.here {P : Prog Λ α → Prop} {p : Prog Λ α} {s : σ} (h : P p) : Gets P p s := ⟨p, s, .refl _ _, h⟩

theorem Gets.read {P : Prog Λ α → Prop} {l : Λ.L} {k : Λ.V l → Prog Λ α} {s : σ} (h : Gets P (k (Λ.get l s)) s) : Gets P (.read l k) s := by
  obtain ⟨q, s', h1, h2⟩ := h
  exact ⟨q, s', .read h1, h2⟩

theorem Gets.write {P : Prog Λ α → Prop} {l : Λ.L} {v : Λ.V l} {p : Prog Λ α} {s : σ} (h : Gets P p (Λ.set l v s)) : Gets P (.write l v p) s := by
  obtain ⟨q, s', h1, h2⟩ := h
  exact ⟨q, s', .write h1, h2⟩

theorem GetsR.here {P : Prog Λ α → Prop} {p : Prog Λ α} {s : σ} (h : P p) : GetsR P p s := ⟨p, .refl _ _, h⟩

theorem GetsR.read {P : Prog Λ α → Prop} {l : Λ.L} {k : Λ.V l → Prog Λ α} {s : σ} (h : GetsR P (k (Λ.get l s)) s) : GetsR P (.read l k) s := by
  obtain ⟨q, h1, h2⟩ := h
  exact ⟨q, .read h1, h2⟩

/-- The same for a method that, run alone on `s`, returns. -/
def GetsOk (P : Prog Λ α → Prop) (p : Prog Λ α) (s : σ) : Prop := (∃ a, (p.run s).1 = .ok a) → Gets P p s

theorem GetsOk.here {P : Prog Λ α → Prop} {p : Prog Λ α} {s : σ} (h : P p) : GetsOk P p s := fun _ => Gets.here h

theorem GetsOk.read {P : Prog Λ α → Prop} {l : Λ.L} {k : Λ.V l → Prog Λ α} {s : σ} (h : GetsOk P (k (Λ.get l s)) s) : GetsOk P (.read l k) s :=
  fun ho => Gets.read (h ho)

theorem GetsOk.write {P : Prog Λ α → Prop} {l : Λ.L} {v : Λ.V l} {p : Prog Λ α} {s : σ} (h : GetsOk P p (Λ.set l v s)) :
    GetsOk P (.write l v p) s :=
  fun ho => Gets.write (h ho)

theorem GetsOk.lift {γ : Type} {P : Prog Λ γ → Prop} {r : Res α} {f : α → Prog Λ β} {g : β → Prog Λ γ} {s : σ}
    (h : ∀ a, GetsOk P ((f a).bind g) s) : GetsOk P (((Prog.lift r).bind f).bind g) s := by
  rintro ⟨c, hc⟩
  cases r with
  | ok a => exact h a ⟨c, hc⟩
  | throws e => cases hc
  | exits n => cases hc
  | aborts => cases hc
  | ub => cases hc
  | nonfinite => cases hc

/-- Some schedule of the two methods on `s` has a data race. -/
def CanRace (p q : Prog Λ α) (s : σ) : Prop :=
  ∀ (ι : Type) (_ : DecidableEq ι) (i j : ι) (ts : ι → Prog Λ α), i ≠ j → ts i = p → ts j = q → ∃ ts' t, Reach (ts, s) (ts', t) ∧ Race ts'

theorem CanRace.symm {p q : Prog Λ α} {s : σ} (h : CanRace p q s) : CanRace q p s :=
  fun ι d i j ts hij hi hj => h ι d j i ts hij.symm hj hi

theorem canRace_rw (l : Λ.L) {p q : Prog Λ α} {s : σ} (hp : GetsR (·.Accesses l) p s) (hq : Gets (·.Writes l) q s) : CanRace p q s := by
  obtain ⟨p', h1, h2⟩ := hp
  obtain ⟨q', s', h3, h4⟩ := hq
  exact fun ι _ i j ts hij hi hj => race_of l h1 h3 (Or.inr ⟨h4, h2⟩) i j hij ts hi hj

theorem canRace_wr (l : Λ.L) {p q : Prog Λ α} {s : σ} (hp : GetsR (·.Writes l) p s) (hq : Gets (·.Accesses l) q s) : CanRace p q s := by
  obtain ⟨p', h1, h2⟩ := hp
  obtain ⟨q', s', h3, h4⟩ := hq
  exact fun ι _ i j ts hij hi hj => race_of l h1 h3 (Or.inl ⟨h2, h4⟩) i j hij ts hi hj

end Prog
end MU
