import Verif.Model.Sparta
import Verif.Spec.Sparta
import Verif.Lemmas.Walk
import Verif.Lemmas.AtariIO
import Verif.Lemmas.AtariRead
/-! # SpartaDOS sector maps and files -/
namespace Atr

theorem getSectors_one_eq (h : AHeader) (b : Bytes) (s : Nat) : h.getSectors b s s =
    match h.getPos s with
    | .error e => .error e
    | .ok (p, n) => .ok (slice b p (p + n)) := by
  unfold AHeader.getSectors AHeader.getSectorSlice
  rw [Nat.sub_self]
  cases h.getPos s with
  | error e => rfl
  | ok x => simp [AHeader.moreSize]

theorem wordsOf_eq : ∀ (k : Nat) (r : Bytes), r.length = 2 * k → wordsOf r = (List.range k).map fun i => wordAt r (2 * i) := by
  intro k
  induction k with
  | zero =>
    intro r hr
    match r, hr with
    | [], _ => rfl
  | succ k ih =>
    intro r hr
    match r, hr with
    | a :: b :: t, hr =>
      have : t.length = 2 * k := by simp at hr; omega
      rw [wordsOf, ih t this, List.range_succ_eq_map, List.map_cons, List.map_map]
      congr 1

theorem wordsOf_mapWords (n0 n1 p0 p1 : UInt8) (r : Bytes) (hr : r.length % 2 = 0) : wordsOf r = mapWords (n0 :: n1 :: p0 :: p1 :: r) := by
  rw [wordsOf_eq (r.length / 2) r (by omega)]
  unfold mapWords
  rw [show (n0 :: n1 :: p0 :: p1 :: r).length / 2 - 2 = r.length / 2 by simp; omega]
  apply List.map_congr_left
  intro i _
  rw [show 4 + 2 * i = 2 * i + 1 + 1 + 1 + 1 by omega]
  rfl

theorem getPos_error {h : AHeader} {n : Nat} (g : h.Geom n) {s : Nat} (hs : ¬ (1 ≤ s ∧ s ≤ h.maxSectors)) :
    h.getPos s = .error .byteNotInFile := by
  have hv : h.sectorIsValid s = false := by
    cases hv : h.sectorIsValid s with
    | false => rfl
    | true => exact absurd ((AHeader.sectorIsValid_iff g s).mp hv) hs
  unfold AHeader.getPos; rw [hv]; rfl

theorem getSectors_valid {h : AHeader} {b : Bytes} {n s : Nat} (g : h.Geom n) (h1 : 1 ≤ s) (h2 : s ≤ h.maxSectors) :
    h.getSectors b s s = .ok (sectorBytes h b s) := by
  obtain ⟨p, k, hp⟩ := AHeader.getPos_isOk g h1 h2
  rw [getSectors_one_eq, sectorBytes, hp]

/-- one step of the map loop -/
theorem mapLoop_step {h : AHeader} {b : Bytes} {n s : Nat} (g : h.Geom n) (fuel : Nat) (hs : MapSector h b s) :
    mapLoop h b (fuel + 1) s = (mapLoop h b fuel (wordAt (sectorBytes h b s) 0)).map (mapWords (sectorBytes h b s) ++ ·) := by
  obtain ⟨h1, h2, h3, h4⟩ := hs
  rw [mapLoop, if_neg (by omega), getSectors_valid g h1 h2]
  generalize sectorBytes h b s = d at h3 h4
  match d, h3 with
  | n0 :: n1 :: p0 :: p1 :: r, _ =>
    have hr : r.length % 2 = 0 := by simp at h4; omega
    simp only
    rw [if_neg (by omega), wordsOf_mapWords n0 n1 p0 p1 r hr]
    have : wordAt (n0 :: n1 :: p0 :: p1 :: r) 0 = le16 n0 n1 := rfl
    rw [this]
    cases mapLoop h b fuel (le16 n0 n1) <;> rfl

/-- the map loop stops with an error in anything that is not a map sector -/
theorem mapLoop_stop {h : AHeader} {b : Bytes} {n s : Nat} (g : h.Geom n) (fuel : Nat) (h0 : s ≠ 0) (hs : ¬ MapSector h b s) :
    mapLoop h b (fuel + 1) s = .error .byteNotInFile ∨ mapLoop h b (fuel + 1) s = .error .valueError := by
  rw [mapLoop, if_neg h0]
  by_cases hv : 1 ≤ s ∧ s ≤ h.maxSectors
  · right
    rw [getSectors_valid g hv.1 hv.2]
    have hs : ¬ (4 ≤ (sectorBytes h b s).length ∧ (sectorBytes h b s).length % 2 = 0) := fun x => hs ⟨hv.1, hv.2, x.1, x.2⟩
    generalize sectorBytes h b s = d at hs
    match d, hs with
    | [], _ => rfl
    | [_], _ => rfl
    | [_, _], _ => rfl
    | [_, _, _], _ => rfl
    | n0 :: n1 :: p0 :: p1 :: r, hs =>
      simp only
      rw [if_pos (by simp at hs; omega)]
  · left
    rw [getSectors_one_eq, getPos_error g hv]

open Classical in
/-- the link followed by the loop over map sectors -/
noncomputable def mapNext (h : AHeader) (b : Bytes) (s : Nat) : Option Nat :=
  if MapSector h b s then some (wordAt (sectorBytes h b s) 0) else none

theorem mapNext_lt {h : AHeader} {b : Bytes} (s t : Nat) (hn : mapNext h b s = some t) : s < h.maxSectors + 1 := by
  unfold mapNext at hn
  split at hn
  · rename_i hs; have := hs.2.1; omega
  · cases hn

theorem mapLoop_hang_iff {h : AHeader} {b : Bytes} {n : Nat} (g : h.Geom n) : ∀ fuel s, mapLoop h b fuel s = .error .hang ↔
    ¬ ∃ k, k ≤ fuel ∧ EndsN (mapNext h b) k s := by
  intro fuel
  induction fuel with
  | zero =>
    intro s
    simp only [mapLoop, true_iff]
    rintro ⟨k, hk, e⟩
    have := e.pos; omega
  | succ fuel ih =>
    intro s
    by_cases hs : MapSector h b s
    · have hn : mapNext h b s = some (wordAt (sectorBytes h b s) 0) := if_pos hs
      have hstep : (∃ k, k ≤ fuel + 1 ∧ EndsN (mapNext h b) k s) ↔
          ∃ k, k ≤ fuel ∧ EndsN (mapNext h b) k (wordAt (sectorBytes h b s) 0) := by
        constructor
        · rintro ⟨k, hk, e⟩
          cases e with
          | stop h2 => rw [hn] at h2; cases h2
          | step h2 e => rw [hn] at h2; injection h2 with h2; subst h2; exact ⟨_, by omega, e⟩
        · rintro ⟨k, hk, e⟩; exact ⟨k + 1, by omega, EndsN.step hn e⟩
      rw [hstep, ← ih, mapLoop_step g fuel hs]
      cases mapLoop h b fuel (wordAt (sectorBytes h b s) 0) <;> simp [Except.map]
    · have hn : mapNext h b s = none := if_neg hs
      constructor
      · intro hh
        exfalso
        by_cases h0 : s = 0
        · rw [mapLoop, if_pos h0] at hh; cases hh
        · rcases mapLoop_stop g fuel h0 hs with e | e <;> rw [e] at hh <;> cases hh
      · intro hh; exact absurd ⟨1, by omega, EndsN.stop hn⟩ hh

theorem mapLoop_ok {h : AHeader} {b : Bytes} {n : Nat} (g : h.Geom n) : ∀ fuel s M, mapLoop h b fuel s = .ok M → MapOf h b s M := by
  intro fuel
  induction fuel with
  | zero => intro s M hm; cases hm
  | succ fuel ih =>
    intro s M hm
    by_cases h0 : s = 0
    · rw [mapLoop, if_pos h0] at hm
      injection hm with hm; subst hm h0
      exact .nil
    · by_cases hs : MapSector h b s
      · rw [mapLoop_step g fuel hs] at hm
        cases hr : mapLoop h b fuel (wordAt (sectorBytes h b s) 0) with
        | error e => rw [hr] at hm; cases hm
        | ok M' =>
          rw [hr] at hm; injection hm with hm; subst hm
          exact .cons hs (ih _ _ hr)
      · rcases mapLoop_stop g fuel h0 hs with e | e <;> rw [e] at hm <;> cases hm

theorem MapOf.ends {h : AHeader} {b : Bytes} {s : Nat} {M : List Nat} (hM : MapOf h b s M) : ∃ k, EndsN (mapNext h b) k s := by
  induction hM with
  | nil => exact ⟨1, .stop (if_neg fun x => by have := x.1; omega)⟩
  | cons hs _ ih => obtain ⟨k, e⟩ := ih; exact ⟨k + 1, .step (if_pos hs) e⟩

theorem mapLoop_of_ends {h : AHeader} {b : Bytes} {n : Nat} (g : h.Geom n) {s : Nat} {M : List Nat} (hM : MapOf h b s M) :
    ∀ fuel k, EndsN (mapNext h b) k s → k ≤ fuel → mapLoop h b fuel s = .ok M := by
  induction hM with
  | nil =>
    intro fuel k e hk
    have := e.pos
    obtain ⟨f, rfl⟩ : ∃ f, fuel = f + 1 := ⟨fuel - 1, by omega⟩
    rw [mapLoop, if_pos rfl]
  | @cons s M hs _ ih =>
    intro fuel k e hk
    cases e with
    | stop h2 => rw [show mapNext h b s = some _ from if_pos hs] at h2; cases h2
    | step h2 e =>
      rw [show mapNext h b s = some _ from if_pos hs] at h2; injection h2 with h2; subst h2
      have := e.pos
      obtain ⟨f, rfl⟩ : ∃ f, fuel = f + 1 := ⟨fuel - 1, by omega⟩
      rw [mapLoop_step g f hs, ih f _ e (by omega)]; rfl

theorem spartaMap_ok_iff {h : AHeader} {b : Bytes} {n : Nat} (g : h.Geom n) (s : Nat) (M : List Nat) :
    spartaMap h b s = .ok M ↔ s ≠ 0 ∧ MapOf h b s M := by
  unfold spartaMap
  by_cases h0 : s = 0
  · rw [if_pos h0]; simp [h0]
  · rw [if_neg h0]
    constructor
    · intro hm; exact ⟨h0, mapLoop_ok g _ _ _ hm⟩
    · rintro ⟨_, hM⟩
      obtain ⟨k, e⟩ := hM.ends
      exact mapLoop_of_ends g hM _ k e (by have := e.bound mapNext_lt; omega)

theorem sectorBytes_eq {h : AHeader} {b : Bytes} {s p k : Nat} (hp : h.getPos s = .ok (p, k)) : sectorBytes h b s = slice b p (p + k) := by
  rw [sectorBytes, hp]

theorem getPos_fits {h : AHeader} {n s p k : Nat} (g : h.Geom n) (hp : h.getPos s = .ok (p, k)) : p + k ≤ n := by
  obtain ⟨h1, h2, hc⟩ := AHeader.getPos_ok g hp
  rcases hc with ⟨a, rfl, rfl⟩ | ⟨a, a', rfl, rfl⟩
  · have := AHeader.dpos_fit g a h2
    have := g.fit; omega
  · have := g.fit
    rcases g.inits with gi | gi
    · omega
    · have := gi.2.2.2; omega

theorem spartaRead_terminated {h : AHeader} {b : Bytes} (g : h.Geom b.length) : ∀ (P : List Nat) (R : List Nat) (rem : Int),
    (∀ s ∈ P, 1 ≤ s ∧ s ≤ h.maxSectors) →
    ∃ l, spartaRead h b (P ++ 0 :: R) rem = .ok l ∧ (∀ x ∈ l, x.1 + x.2.toNat ≤ b.length) ∧
      (l.flatMap fun x => slice b x.1 (x.1 + x.2.toNat)) = (P.flatMap (sectorBytes h b)).take rem.toNat := by
  intro P
  induction P with
  | nil => intro R rem _; exact ⟨[], by simp [spartaRead], by simp, by simp⟩
  | cons s P ih =>
    intro R rem hP
    have hs := hP s (by simp)
    obtain ⟨p, k, hp⟩ := AHeader.getPos_isOk g hs.1 hs.2
    have hfit := getPos_fits g hp
    obtain ⟨l, l1, l2, l3⟩ := ih R (rem - min rem k) (fun x hx => hP x (by simp [hx]))
    refine ⟨(p, min rem k) :: l, ?_, ?_, ?_⟩
    · rw [List.cons_append, spartaRead, if_neg (by omega)]
      unfold AHeader.getRawBytes
      rw [hp]; simp only; rw [l1]
    · intro x hx
      rcases List.mem_cons.mp hx with rfl | hx
      · simp only; omega
      · exact l2 x hx
    · rw [List.flatMap_cons, l3, List.flatMap_cons, sectorBytes_eq hp, List.take_append, length_slice]
      congr 1
      · simp only [slice]
        rw [List.drop_take, List.drop_take, List.take_take]
        congr 1; omega
      · congr 1; omega

theorem spartaRead_no_terminator {h : AHeader} {b : Bytes} {n : Nat} (g : h.Geom n) : ∀ (M : List Nat) (rem : Int),
    (∀ s ∈ M, 1 ≤ s ∧ s ≤ h.maxSectors) → spartaRead h b M rem = .error .indexError := by
  intro M
  induction M with
  | nil => intro rem _; rfl
  | cons s M ih =>
    intro rem hM
    have hs := hM s (by simp)
    obtain ⟨p, k, hp⟩ := AHeader.getPos_isOk g hs.1 hs.2
    rw [spartaRead, if_neg (by omega)]
    unfold AHeader.getRawBytes
    rw [hp]; simp only
    rw [ih _ (fun x hx => hM x (by simp [hx]))]

theorem spartaRead_bad {h : AHeader} {b : Bytes} {n : Nat} (g : h.Geom n) : ∀ (P R : List Nat) (t : Nat) (rem : Int),
    (∀ s ∈ P, 1 ≤ s ∧ s ≤ h.maxSectors) → h.maxSectors < t → spartaRead h b (P ++ t :: R) rem = .error .byteNotInFile := by
  intro P
  induction P with
  | nil =>
    intro R t rem _ ht
    rw [List.nil_append, spartaRead, if_neg (by omega)]
    unfold AHeader.getRawBytes
    rw [getPos_error g (by omega)]
  | cons s M ih =>
    intro R t rem hM ht
    have hs := hM s (by simp)
    obtain ⟨p, k, hp⟩ := AHeader.getPos_isOk g hs.1 hs.2
    rw [List.cons_append, spartaRead, if_neg (by omega)]
    unfold AHeader.getRawBytes
    rw [hp]; simp only
    rw [ih _ _ _ (fun x hx => hM x (by simp [hx])) ht]

/-- every list of sector numbers either ends in a zero after valid ones, has only valid ones, or one too large -/
theorem map_cases (N : Nat) : ∀ M : List Nat, (∃ P R, M = P ++ 0 :: R ∧ ∀ s ∈ P, 1 ≤ s ∧ s ≤ N) ∨ (∀ s ∈ M, 1 ≤ s ∧ s ≤ N) ∨
    (∃ P t R, M = P ++ t :: R ∧ (∀ s ∈ P, 1 ≤ s ∧ s ≤ N) ∧ N < t) := by
  intro M
  induction M with
  | nil => right; left; simp
  | cons s M ih =>
    by_cases h0 : s = 0
    · left; exact ⟨[], M, by simp [h0], by simp⟩
    by_cases h1 : N < s
    · right; right; exact ⟨[], s, M, by simp, by simp, h1⟩
    have hs : 1 ≤ s ∧ s ≤ N := by omega
    rcases ih with ⟨P, R, rfl, hP⟩ | hM | ⟨P, t, R, rfl, hP, ht⟩
    · left; exact ⟨s :: P, R, by simp, fun x hx => by rcases List.mem_cons.mp hx with rfl | hx; exact hs; exact hP x hx⟩
    · right; left; intro x hx; rcases List.mem_cons.mp hx with rfl | hx; exact hs; exact hM x hx
    · right; right; exact ⟨s :: P, t, R, by simp, fun x hx => by rcases List.mem_cons.mp hx with rfl | hx; exact hs; exact hP x hx, ht⟩

theorem gather_spartaOrder (b : Bytes) (l : List (Nat × Int)) (hl : ∀ x ∈ l, x.1 + x.2.toNat ≤ b.length) :
    gather b (spartaOrder l) = .ok (l.flatMap fun x => slice b x.1 (x.1 + x.2.toNat)) := by
  have := gather_flatMap b (l.map fun x => (0, x.1, x.2.toNat)) (by
    intro y hy
    obtain ⟨x, hx, rfl⟩ := List.mem_map.mp hy
    exact hl x hx)
  rw [List.flatMap_map] at this
  rw [← this]
  congr 1
  unfold spartaOrder byteOrder
  rw [List.flatMap_map]

theorem spartaOrder_nil {b : Bytes} {l : List (Nat × Int)} (hl : ∀ x ∈ l, x.1 + x.2.toNat ≤ b.length) :
    spartaOrder l = [] ↔ (l.flatMap fun x => slice b x.1 (x.1 + x.2.toNat)) = [] := by
  unfold spartaOrder
  simp only [List.flatMap_eq_nil_iff]
  constructor
  · intro hh x hx
    have := hh x hx
    rw [List.range'_eq_nil_iff] at this
    apply List.eq_nil_of_length_eq_zero
    rw [length_slice]; omega
  · intro hh x hx
    have h1 := congrArg List.length (hh x hx)
    have := hl x hx
    rw [length_slice] at h1
    rw [List.range'_eq_nil_iff]
    simp at h1; omega

end Atr
