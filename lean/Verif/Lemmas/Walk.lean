import Verif.Lemmas.Alloc
/-!
# Following links: a walk either ends within as many steps as there are places, or never
-/
namespace Atr

/-- the walk along `next` from `s` ends after `k` steps (`none`: nothing to follow) -/
inductive EndsN (next : Nat → Option Nat) : Nat → Nat → Prop
  | stop {s} : next s = none → EndsN next 1 s
  | step {s t k} : next s = some t → EndsN next k t → EndsN next (k + 1) s

theorem EndsN.pos {next k s} (e : EndsN next k s) : 0 < k := by cases e <;> omega

theorem EndsN.unique {next : Nat → Option Nat} {k s} (e : EndsN next k s) : ∀ {j}, EndsN next j s → j = k := by
  induction e with
  | stop h1 =>
    intro j e'
    cases e' with
    | stop => rfl
    | step h2 _ => rw [h1] at h2; cases h2
  | step h1 _ ih =>
    intro j e'
    cases e' with
    | stop h2 => rw [h1] at h2; cases h2
    | step h2 e2 =>
      rw [h1] at h2; injection h2 with h2; subst h2
      rw [ih e2]

theorem EndsN.path {next : Nat → Option Nat} {N : Nat} (hN : ∀ s t, next s = some t → s < N) {k s} (e : EndsN next k s) :
    ∃ L : List Nat, L.length + 1 = k ∧ L.Nodup ∧ (∀ s ∈ L, s < N) ∧ (∀ s ∈ L, ∃ j, j ≤ k ∧ EndsN next j s) := by
  induction e with
  | stop h1 => exact ⟨[], rfl, by simp, by simp, by simp⟩
  | @step s t k h1 e1 ih =>
    obtain ⟨L, l1, l2, l3, l4⟩ := ih
    refine ⟨s :: L, by simp; omega, ?_, ?_, ?_⟩
    · rw [List.nodup_cons]
      refine ⟨?_, l2⟩
      intro hm
      obtain ⟨j, hj, ej⟩ := l4 _ hm
      have := EndsN.unique (EndsN.step h1 e1) ej
      omega
    · intro x hx
      rcases List.mem_cons.mp hx with rfl | hx
      · exact hN _ _ h1
      · exact l3 x hx
    · intro x hx
      rcases List.mem_cons.mp hx with rfl | hx
      · exact ⟨k + 1, by omega, EndsN.step h1 e1⟩
      · obtain ⟨j, hj, ej⟩ := l4 x hx
        exact ⟨j, by omega, ej⟩

theorem EndsN.bound {next : Nat → Option Nat} {N : Nat} (hN : ∀ s t, next s = some t → s < N) {k s} (e : EndsN next k s) : k ≤ N + 1 := by
  obtain ⟨L, l1, l2, l3, _⟩ := e.path hN
  have := nodup_length_le N L l2 l3
  omega

end Atr
