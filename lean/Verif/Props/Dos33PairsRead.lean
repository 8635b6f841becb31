import Verif.Props.Dos33Pairs
import Verif.Lemmas.Dos33Write
/-!
# C127: lists that are written with another number of pairs

What the code reads from the track/sector lists that it makes when the VTOC states `p` pairs for a list.
-/
namespace Atr

theorem chain_linked33 {b : Bytes} : ∀ (ns : List Nat), (∀ (j n : Nat), ns[j]? = some n → n ≠ 0 ∧ n < 560 ∧ linkOf (sec33 b n) = ns.getD (j + 1) 0) →
    Chain33 b (ns.headD 0) ns := by
  intro ns
  induction ns with
  | nil => intro _; exact .nil
  | cons n ns ih =>
    intro h
    obtain ⟨h0, h1, h2⟩ := h 0 n rfl
    refine .cons h0 h1 ?_
    show Chain33 b (linkOf (sec33 b n)) ns
    rw [h2]
    have := ih fun j x hx => by
      have := h (j + 1) x (by rw [List.getElem?_cons_succ]; exact hx)
      rwa [List.getD_cons_succ] at this
    cases ns with
    | nil => exact this
    | cons => exact this

/-- the pairs of the first list come first -/
theorem pairs_short {b : Bytes} {g : List Nat} {n : Nat} {ns : List Nat} {x : Nat} (hg : g.length ≤ 122) (hn : ∀ y ∈ g, y < 4096)
    (hs : sec33 b n = splice (tsData g) 1 (tsBytes x)) :
    (n :: ns).flatMap (fun t => tsPairsOf (sec33 b t)) = g ++ List.replicate (122 - g.length) 0 ++ ns.flatMap (fun t => tsPairsOf (sec33 b t)) := by
  rw [List.flatMap_cons, hs, tsPairs_tsData hg hn]

theorem length_tsPairs_flat {b : Bytes} : ∀ (gs : List (List Nat)) (ns : List Nat), gs.length = ns.length → (∀ g ∈ gs, g.length ≤ 122) → (∀ g ∈ gs, ∀ n ∈ g, n < 4096) →
    (∀ (j n : Nat) (g : List Nat), gs[j]? = some g → ns[j]? = some n → ∃ x, sec33 b n = splice (tsData g) 1 (tsBytes x)) →
    gs.flatten.length ≤ (ns.flatMap fun t => tsPairsOf (sec33 b t)).length := by
  intro gs
  induction gs with
  | nil => intro ns _ _ _ _; exact Nat.zero_le _
  | cons g gs ih =>
    intro ns hl h1 h2 h3
    cases ns with
    | nil => simp at hl
    | cons n ns =>
      obtain ⟨x, hx⟩ := h3 0 n g rfl rfl
      have := ih ns (by simpa using hl) (fun y hy => h1 y (by simp [hy])) (fun y hy => h2 y (by simp [hy]))
        (fun j m y hy hm => h3 (j + 1) m y (by rw [List.getElem?_cons_succ]; exact hy) (by rw [List.getElem?_cons_succ]; exact hm))
      rw [pairs_short (h1 g (by simp)) (h2 g (by simp)) hx, List.flatten_cons, List.length_append, List.length_append, List.length_append, List.length_replicate]
      omega

/-- what the code reads from lists with `p` pairs -/
theorem tsMap_lists {b : Bytes} {p : Nat} {nums order : List Nat} {d : DDirent} (hb : b.length = 143360) (hp0 : 0 < p) (hp : p ≤ 122)
    (hnums : ∀ n ∈ nums, n ≠ 0 ∧ n < 560) (hne : nums ≠ []) (hlen : (chunks p nums).length = order.length) (hin : ∀ n ∈ order, n ≠ 0 ∧ n < 560)
    (hsec : ∀ (j n : Nat) (g : List Nat), (chunks p nums)[j]? = some g → order[j]? = some n → sec33 b n = splice (tsData g) 1 (tsBytes (order.getD (j + 1) 0)))
    (hd : secOfTS d.track d.sector = order.headD 0) (hnum : d.numSectors = nums.length + order.length) :
    ∃ map, d.tsMap 560 b = .ok (order, map) ∧ map.length = nums.length ∧ (map = nums ↔ p = 122 ∨ nums.length ≤ p) ∧
      (p < 122 → p < nums.length → map[p]? = some 0) ∧ ∀ s ∈ map, s = 0 ∨ s ∈ nums := by
  have hg : ∀ g ∈ chunks p nums, g.length ≤ 122 := fun g hg => by have := (mem_chunks_length p (by omega) nums g hg).2; omega
  have hflat := chunks_flatten p (by omega) nums
  have hg2 : ∀ g ∈ chunks p nums, ∀ n ∈ g, n < 4096 := fun g hg n hn => by
    have : n ∈ nums := by rw [← hflat]; exact List.mem_flatten.mpr ⟨g, hg, hn⟩
    have := (hnums n this).2
    omega
  have hch : Chain33 b (order.headD 0) order := by
    refine chain_linked33 order fun j n hn => ⟨(hin n (List.mem_of_getElem? hn)).1, (hin n (List.mem_of_getElem? hn)).2, ?_⟩
    have hj : j < (chunks p nums).length := by rw [hlen]; exact (List.getElem?_eq_some_iff.mp hn).1
    rw [hsec j n _ (List.getElem?_eq_getElem hj) hn]
    refine linkOf_setNext (length_tsData (hg _ (List.getElem_mem hj))) ?_
    rw [List.getD_eq_getElem?_getD]
    cases hx : order[j + 1]? with
    | none => exact (by decide : 0 < 4096)
    | some y => have := (hin y (List.mem_of_getElem? hx)).2; exact (by omega : y < 4096)
  have hmap : d.tsMap 560 b = .ok (order, (order.flatMap fun t => tsPairsOf (sec33 b t)).take nums.length) := by
    unfold DDirent.tsMap
    rw [hd, tsLoop_eq hb hch _ (by have := hch.length_le; omega)]
    simp only
    have e1 : (List.map (fun t => (t, sec33 b t)) order).map (·.1) = order := by rw [List.map_map]; simp [Function.comp_def]
    have e2 : (List.map (fun t => (t, sec33 b t)) order).flatMap (fun x => tsPairsOf x.2) = order.flatMap fun t => tsPairsOf (sec33 b t) := by
      rw [List.flatMap_map]
    rw [e1, e2, List.length_map, hnum]
    unfold pySliceTo
    rw [if_pos (by omega)]
    congr 3
    omega
  have hfl := length_tsPairs_flat (b := b) (chunks p nums) order hlen hg hg2 fun j n g hj hn => ⟨_, hsec j n g hj hn⟩
  rw [hflat] at hfl
  have hfirst : p < 122 → p < nums.length → ((order.flatMap fun t => tsPairsOf (sec33 b t)).take nums.length)[p]? = some 0 := by
    intro h1 h2
    rw [List.getElem?_take_of_lt h2]
    rw [chunks_cons p (by omega) nums hne] at hlen hsec hg hg2
    cases order with
    | nil => simp at hlen
    | cons n ns =>
      have hl : (nums.take p).length = p := by rw [List.length_take]; omega
      rw [pairs_short (hg _ List.mem_cons_self) (hg2 _ List.mem_cons_self) (hsec 0 n _ rfl rfl), hl, List.append_assoc,
        List.getElem?_append_right (by omega), hl, Nat.sub_self, List.getElem?_append_left (by rw [List.length_replicate]; omega),
        List.getElem?_replicate, if_pos (by omega)]
  refine ⟨_, hmap, by rw [List.length_take]; omega, ⟨fun he => ?_, fun hcase => ?_⟩, hfirst, fun s hs => ?_⟩
  · by_cases h1 : p = 122
    · exact Or.inl h1
    · refine Or.inr (Nat.le_of_not_lt fun h2 => ?_)
      have := hfirst (by omega) h2
      rw [he] at this
      exact (hnums 0 (List.mem_of_getElem? this)).1 rfl
  · have hdl : ∀ g ∈ (chunks p nums).dropLast, g.length = 122 := by
      rcases hcase with rfl | hle
      · exact chunks_dropLast 122 (by omega) nums
      · rw [chunks_cons p (by omega) nums hne, List.drop_of_length_le hle, chunks_nil]
        intro g hg
        cases hg
    obtain ⟨z, hz⟩ := flatMap_pairs (b := b) (chunks p nums) order hlen hg hdl hg2 fun j n g hj hn => ⟨_, hsec j n g hj hn⟩
    rw [hz, hflat, List.take_append_of_le_length (Nat.le_refl _), List.take_length]
  · obtain ⟨t, ht, hs⟩ := List.mem_flatMap.mp (List.mem_of_mem_take hs)
    obtain ⟨j, hj⟩ := List.getElem?_of_mem ht
    have hjl : j < (chunks p nums).length := by rw [hlen]; exact (List.getElem?_eq_some_iff.mp hj).1
    rw [hsec j t _ (List.getElem?_eq_getElem hjl) hj, tsPairs_tsData (hg _ (List.getElem_mem hjl)) (hg2 _ (List.getElem_mem hjl))] at hs
    rcases List.mem_append.mp hs with hs | hs
    · exact Or.inr (by rw [← hflat]; exact List.mem_flatten.mpr ⟨_, List.getElem_mem hjl, hs⟩)
    · exact Or.inl (List.mem_replicate.mp hs).2

/-- **C127 (partial).** Let the VTOC state `p` pairs for a list, and let the lists made for a file in the sectors `nums` be stored in the sectors `order`, where the entry of the file says.
The code finds these lists again and takes as many sectors from them as the file has, but they are the sectors of the file only if `p` is 122 or one list was enough: otherwise
sector 0 of the disk takes the place of number `p`. -/
theorem C127_partial {b : Bytes} {p : Nat} {nums order : List Nat} {tl : List WSector} {d : DDirent} (hb : b.length = 143360) (hp : p ≤ 122)
    (hnums : ∀ n ∈ nums, n ≠ 0 ∧ n < 560) (hne : nums ≠ []) (hbt : buildTsList p nums = .ok tl) (ho : order.length = tl.length) (hin : ∀ n ∈ order, n ≠ 0 ∧ n < 560)
    (hst : ∀ w ∈ linkSectors WSector.setNext33 0 tl order, sec33 b w.num = w.data) (hd : secOfTS d.track d.sector = order.headD 0)
    (hnum : d.numSectors = nums.length + tl.length) :
    ∃ map, d.tsMap 560 b = .ok (order, map) ∧ map.length = nums.length ∧ (map = nums ↔ p = 122 ∨ nums.length ≤ p) ∧
      (p < 122 → p < nums.length → map[p]? = some 0) := by
  have hp0 : p ≠ 0 := (buildTsList_fits hbt).1
  unfold buildTsList at hbt
  rw [if_neg hp0] at hbt
  have hg : ∀ g ∈ chunks p nums, g.length ≤ 122 := fun g hg => by have := (mem_chunks_length p (by omega) nums g hg).2; omega
  obtain ⟨tl', t1, t2⟩ := tsSectors_ok (chunks p nums) hg
  rw [hbt] at t1
  have t1 := Except.ok.inj t1
  subst t1
  have hlen : (chunks p nums).length = order.length := by
    have := congrArg List.length t2
    rw [List.length_map, List.length_map] at this
    omega
  obtain ⟨k1, k2⟩ := linkSectors_33 tl order 0 ho.symm
  generalize linkSectors WSector.setNext33 0 tl order = wl at k1 k2 hst
  have hsec : ∀ (j n : Nat) (g : List Nat), (chunks p nums)[j]? = some g → order[j]? = some n → sec33 b n = splice (tsData g) 1 (tsBytes (order.getD (j + 1) 0)) := by
    intro j n g hj hn
    have hw : (wl.map (·.num))[j]? = some n := by rw [k1]; exact hn
    rw [List.getElem?_map] at hw
    obtain ⟨w, hw1, hw2⟩ := Option.map_eq_some_iff.mp hw
    have ht : (tl.map (·.data))[j]? = some (tsData g) := by rw [t2, List.getElem?_map, hj]; rfl
    rw [List.getElem?_map] at ht
    obtain ⟨s, hs1, hs2⟩ := Option.map_eq_some_iff.mp ht
    rw [← hw2, hst w (List.mem_of_getElem? hw1), k2 j s w hs1 hw1, hs2]
  obtain ⟨map, r1, r2, r3, r4, _⟩ := tsMap_lists hb (by omega) hp hnums hne hlen hin hsec hd (by rw [ho]; exact hnum)
  exact ⟨map, r1, r2, r3, r4⟩

/-- sectors of an image that holds the lists of a file in the sectors 20 and 21 for a VTOC that states one pair: lists in the sectors 30 and 31 -/
def onePairSec (s : Nat) : Bytes :=
  if s = 30 then splice (tsData [20]) 1 (tsBytes 31) else if s = 31 then splice (tsData [21]) 1 (tsBytes 0) else List.replicate 256 0

theorem onePairSec_length (s : Nat) : (onePairSec s).length = 256 := by
  unfold onePairSec
  split
  · decide +kernel
  · split
    · decide +kernel
    · exact List.length_replicate

/-- the second sector of that file is read as sector 0 -/
example : ∃ tl map, buildTsList 1 [20, 21] = .ok tl ∧
    ({ track := 1, sector := 14, numSectors := 4 } : DDirent).tsMap 560 (imgOf33 onePairSec) = .ok ([30, 31], map) ∧ map.length = 2 ∧ map ≠ [20, 21] ∧ map[1]? = some 0 := by
  have hs : ∀ s, s < 560 → sec33 (imgOf33 onePairSec) s = onePairSec s := fun s h => sec33_flatMap onePairSec_length h
  have hb := imgOf33_length onePairSec_length
  have hex : ∃ tl, buildTsList 1 [20, 21] = .ok tl ∧ tl.length = 2 ∧
      ∀ w ∈ linkSectors WSector.setNext33 0 tl [30, 31], w.num < 560 ∧ w.data = onePairSec w.num := by
    cases h : buildTsList 1 [20, 21] with
    | error e =>
      have : (buildTsList 1 [20, 21]).toOption.isSome = true := by decide +kernel
      rw [h] at this
      cases this
    | ok tl =>
      have : (buildTsList 1 [20, 21]).toOption.map (fun tl => decide (tl.length = 2) &&
          (linkSectors WSector.setNext33 0 tl [30, 31]).all fun w => decide (w.num < 560) && decide (w.data = onePairSec w.num)) = some true := by decide +kernel
      rw [h] at this
      have := Option.some.inj this
      simp only [Bool.and_eq_true, decide_eq_true_eq, List.all_eq_true] at this
      exact ⟨tl, rfl, this.1, this.2⟩
  obtain ⟨tl, h1, h2, h3⟩ := hex
  obtain ⟨map, k1, k2, k3, k4⟩ := C127_partial (b := imgOf33 onePairSec) (d := { track := 1, sector := 14, numSectors := 4 }) (order := [30, 31]) hb (by decide) (by decide) (by decide) h1
    h2.symm (by decide) (fun w hw => (hs w.num (h3 w hw).1).trans (h3 w hw).2.symm) (by decide) (by rw [h2]; rfl)
  exact ⟨tl, map, h1, k1, k2, fun h => absurd (k3.mp h) (by decide), k4 (by decide) (by decide)⟩

end Atr
