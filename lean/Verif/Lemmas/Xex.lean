import Verif.Spec.Xex
import Verif.Lemmas.Header
/-! # The XEX parser accepts exactly the grammar -/
namespace Atr

theorem le16_ffff {a b : UInt8} : le16 a b = 0xffff ↔ a = 0xff ∧ b = 0xff := by
  have h1 := a.toNat_lt; have h2 := b.toNat_lt
  unfold le16
  constructor
  · intro h
    have : a.toNat = 255 ∧ b.toNat = 255 := by omega
    exact ⟨UInt8.toNat_inj.mp this.1, UInt8.toNat_inj.mp this.2⟩
  · rintro ⟨rfl, rfl⟩; rfl

/-- the loop on the rest of the file -/
theorem xexLoop_spec (b : Bytes) : ∀ (fuel pos : Nat) (first : Bool), b.length - pos < fuel → pos ≤ b.length →
    (∀ l, xexLoop b fuel pos first = .ok l ↔
      ((first = false ∨ (b.drop pos).length ≤ 1 ∨ ∃ r, b.drop pos = 0xff :: 0xff :: r) ∧ XexBody pos (b.drop pos) l)) ∧
    (∀ e, xexLoop b fuel pos first = .error e → e = .invalidBinaryFile) := by
  intro fuel
  induction fuel with
  | zero => intro pos first h; omega
  | succ fuel ih =>
    intro pos first hf hp
    have hlen : (b.drop pos).length = b.length - pos := List.length_drop
    unfold xexLoop
    by_cases hpos : pos < b.length
    · rw [if_pos hpos]
      match hr : b.drop pos with
      | [] => rw [hr] at hlen; simp at hlen; omega
      | [x] =>
        simp only
        refine ⟨fun l => ⟨fun h => ?_, fun h => ?_⟩, fun e h => by cases h⟩
        · injection h with h; subst h
          exact ⟨Or.inr (Or.inl (by simp)), XexBody.odd⟩
        · obtain ⟨_, h⟩ := h
          cases h; rfl
      | lo :: hi :: rest =>
        have hd2 : b.drop (pos + 2) = rest := by
          rw [← List.drop_drop, hr]; rfl
        have hl2 : rest.length + 2 = b.length - pos := by rw [← hlen, hr]; rfl
        simp only
        by_cases hff : le16 lo hi = 0xffff
        · rw [if_pos hff]
          obtain ⟨k1, k2⟩ := ih (pos + 2) false (by omega) (by omega)
          rw [hd2] at k1
          refine ⟨fun l => ?_, k2⟩
          rw [k1 l]
          obtain ⟨rfl, rfl⟩ := le16_ffff.mp hff
          refine ⟨fun h => ⟨Or.inr (Or.inr ⟨rest, rfl⟩), XexBody.marker h.2⟩, fun h => ⟨Or.inl rfl, ?_⟩⟩
          obtain ⟨_, h⟩ := h
          cases h with
          | marker h => exact h
          | seg h _ _ _ => exact absurd (by decide) h
          | cut h _ _ => exact absurd (by decide) h
          | short2 h => exact absurd (by decide) h
          | short3 h => exact absurd (by decide) h
        · rw [if_neg hff]
          have hnot : ¬ ∃ r, lo :: hi :: rest = 0xff :: 0xff :: r := by
            rintro ⟨r, h⟩
            injection h with h1 h2; injection h2 with h2 h3
            exact hff (le16_ffff.mpr ⟨h1, h2⟩)
          cases first with
          | true =>
            rw [if_pos rfl]
            refine ⟨fun l => ⟨fun h => (by cases h), fun h => ?_⟩, fun e h => by cases h; rfl⟩
            rcases h.1 with h | h | h
            · cases h
            · simp at h
            · exact absurd h hnot
          | false =>
            rw [if_neg (by simp)]
            match rest, hl2, hd2 with
            | [], _, _ =>
              refine ⟨fun l => ⟨fun h => ?_, fun h => ?_⟩, fun e h => by cases h⟩
              · injection h with h; subst h; exact ⟨Or.inl rfl, XexBody.short2 hff⟩
              · obtain ⟨_, h⟩ := h
                cases h with
                | marker h => exact absurd rfl hff
                | short2 h => rfl
            | [e0], _, _ =>
              refine ⟨fun l => ⟨fun h => ?_, fun h => ?_⟩, fun e h => by cases h⟩
              · injection h with h; subst h; exact ⟨Or.inl rfl, XexBody.short3 hff⟩
              · obtain ⟨_, h⟩ := h
                cases h with
                | marker h => exact absurd rfl hff
                | short3 h => rfl
            | e0 :: e1 :: tl, hl2, hd2 =>
              simp only [List.length_cons] at hl2
              simp only
              by_cases hlt : le16 e0 e1 < le16 lo hi
              · rw [if_pos hlt]
                refine ⟨fun l => ⟨fun h => (by cases h), fun h => ?_⟩, fun e h => by cases h; rfl⟩
                obtain ⟨_, h⟩ := h
                generalize hX : lo :: hi :: e0 :: e1 :: tl = X at h
                cases h with
                | done => cases hX
                | marker h => cases hX; exact absurd rfl hff
                | seg h1 h2 h3 h4 =>
                  cases hX
                  rename_i d rest
                  have := List.length_pos_iff.mpr h3
                  omega
                | cut h1 h2 h3 => cases hX; omega
                | short2 => cases hX
                | short3 => cases hX
                | odd => cases hX
              · rw [if_neg hlt]
                generalize hcnt : le16 e0 e1 - le16 lo hi + 1 = count
                by_cases hsh : (tl.take count).length < count
                · rw [if_pos hsh]
                  have htk : tl.take count = tl := by
                    rw [List.length_take] at hsh
                    exact List.take_of_length_le (by omega)
                  rw [htk] at hsh ⊢
                  refine ⟨fun l => ⟨fun h => ?_, fun h => ?_⟩, fun e h => by cases h⟩
                  · injection h with h; subst h
                    exact ⟨Or.inl trivial, XexBody.cut hff (by omega) (by omega)⟩
                  · obtain ⟨_, h⟩ := h
                    generalize hX : lo :: hi :: e0 :: e1 :: tl = X at h
                    cases h with
                    | done => cases hX
                    | marker h => cases hX; exact absurd rfl hff
                    | seg h1 h2 h3 h4 =>
                      cases hX
                      simp only [List.length_append] at hsh
                      omega
                    | cut h1 h2 h3 => cases hX; rfl
                    | short2 => cases hX
                    | short3 => cases hX
                    | odd => cases hX
                · rw [if_neg hsh]
                  have hlt2 : count ≤ tl.length := by rw [List.length_take] at hsh; omega
                  have hdl : (tl.take count).length = count := by rw [List.length_take]; omega
                  obtain ⟨k1, k2⟩ := ih (pos + (4 + count)) false (by omega) (by omega)
                  have hdd : b.drop (pos + (4 + count)) = tl.drop count := by
                    rw [← List.drop_drop, hr, Nat.add_comm 4 count]; rfl
                  rw [hdd] at k1
                  have hsp : tl = tl.take count ++ tl.drop count := (List.take_append_drop _ _).symm
                  refine ⟨fun l => ⟨fun h => ?_, fun h => ?_⟩, fun e h => ?_⟩
                  · split at h
                    · cases h
                    · rename_i l1 hl1
                      injection h with h; subst h
                      refine ⟨Or.inl trivial, ?_⟩
                      have hb := ((k1 l1).mp hl1).2
                      have := XexBody.seg (pos := pos) (s0 := lo) (s1 := hi) (e0 := e0) (e1 := e1) (d := tl.take count)
                        (rest := tl.drop count) (l := l1) hff (by omega) (by intro h0; rw [h0] at hdl; simp at hdl; omega)
                        (by rw [hdl, Nat.add_assoc]; exact hb)
                      rw [← hsp] at this
                      exact this
                  · obtain ⟨_, h⟩ := h
                    generalize hX : lo :: hi :: e0 :: e1 :: tl = X at h
                    cases h with
                    | done => cases hX
                    | marker h => cases hX; exact absurd rfl hff
                    | @seg _ _ _ _ _ d rest l1 h1 h2 h3 h4 =>
                      cases hX
                      have hc : count = d.length := by
                        have := List.length_pos_iff.mpr h3
                        omega
                      subst hc
                      rw [List.take_left]
                      rw [List.drop_left] at k1
                      rw [(k1 l1).mpr ⟨Or.inl rfl, by rw [← Nat.add_assoc]; exact h4⟩]
                    | cut h1 h2 h3 => cases hX; omega
                    | short2 => cases hX
                    | short3 => cases hX
                    | odd => cases hX
                  · split at h
                    · rename_i e1 he1
                      injection h with h; subst h
                      exact k2 _ he1
                    · cases h
    · rw [if_neg hpos]
      have h0 : b.drop pos = [] := List.drop_eq_nil_of_le (by omega)
      rw [h0]
      refine ⟨fun l => ⟨fun h => ?_, fun h => ?_⟩, fun e h => by cases h⟩
      · injection h with h; subst h; exact ⟨Or.inr (Or.inl (by simp)), XexBody.done⟩
      · obtain ⟨_, h⟩ := h
        cases h; rfl

end Atr
