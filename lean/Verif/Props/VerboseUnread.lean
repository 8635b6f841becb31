import Verif.Props.Verbose
/-!
# C123: the long descriptions of files that cannot be read
-/
namespace Atr

theorem indexed_error {b : Bytes} {order : List Nat} {e : Err} (h : gather b order = .error e) : (SegView.whole b.length).indexed order = .error e := by
  unfold gather at h
  unfold SegView.indexed
  split at h
  · exact nomatch h
  · rename_i hc
    simp only
    rw [if_neg hc]
    injection h with h
    rw [h]

/-- the description of the segment that stands for a file that cannot be read -/
theorem unread_info (name : Text) {err : Text} (h1 : err ≠ []) (h2 : '\'' ∉ err) : ∃ t u, (VSeg.mk name [] err .empty).info = .ok t ∧ readError t = some (u, err) ∧
    readVerbose u = some (.nothing name) := by
  have herr := C123_error (name := name) (verbose := []) (kind := .empty) h1 h2
  exact ⟨_, name ++ " (empty file)".toList, rfl, herr, readVerbose_nothing _⟩

/-- what a description of a file has to say when reading the file raises `e`: if `e` is one of the errors of damaged files, the name, that there is nothing, and the message
of the error; any other exception ends the description as it ends reading -/
def DescribesFailure (say : Err → Text) (name : Text) (e : Err) (r : Except Err VSeg) : Prop :=
  (e.isInvalidFile = true → say e ≠ [] → '\'' ∉ say e →
    ∃ s t u, r = .ok s ∧ s.info = .ok t ∧ readError t = some (u, say e) ∧ readVerbose u = some (.nothing name)) ∧
  (e.isInvalidFile = false → r = .error e)

theorem describes_bad {say : Err → Text} {name : Text} {e : Err} :
    DescribesFailure say name e (if e.isInvalidFile then .ok { name := name, error := say e, kind := .empty } else .error e) := by
  refine ⟨fun h h1 h2 => ?_, fun h => by rw [h]; rfl⟩
  obtain ⟨t, u, k1, k2, k3⟩ := unread_info name h1 h2
  exact ⟨_, t, u, if_pos h, k1, k2, k3⟩

/-- **C123, files that cannot be read**, for Atari, DOS 3.3 and SpartaDOS disks: if reading a file raises an exception, its description gives the name and the message, or
fails with the same exception if that is not one of damaged files. -/
theorem C123_unreadable (say : Err → Text) (b : Bytes) :
    (∀ (h : AHeader) (d : ADirent) (e : Err), d.getFile h b = .error e → DescribesFailure say (latin1 d.filename) e (d.verboseSeg say h b)) ∧
    (∀ (maxS : Nat) (d : DDirent) (e : Err), d.getFile maxS b = .error e → DescribesFailure say (latin1 d.filename) e (d.verboseSeg say maxS b)) ∧
    (∀ (h : AHeader) (d : SDirent) (e : Err), d.getFile h b = .error e → DescribesFailure say (latin1 d.filename) e (d.verboseSeg say h b)) := by
  refine ⟨fun h d e he => ?_, fun maxS d e he => ?_, fun h d e he => ?_⟩
  · unfold ADirent.getFile at he
    unfold ADirent.verboseSeg
    cases hr : d.readChain h b with
    | error e' =>
      rw [hr] at he
      injection he with he
      subst he
      exact describes_bad
    | ok l =>
      rw [hr] at he
      simp only at he ⊢
      split at he
      · exact nomatch he
      · rename_i hn
        rw [if_neg hn, indexed_error he]
        exact describes_bad
  · unfold DDirent.verboseSeg
    rw [he]
    exact describes_bad
  · unfold SDirent.getFile at he
    unfold SDirent.verboseSeg
    simp only
    split at he
    · rename_i hs
      injection he with he
      subst he
      rw [if_pos hs]
      exact describes_bad
    · rename_i hs
      rw [if_neg hs]
      cases hr : spartaMap h b d.startingSector with
      | error e' =>
        rw [hr] at he
        injection he with he
        subst he
        exact describes_bad
      | ok map =>
        rw [hr] at he
        simp only at he ⊢
        cases hl : spartaRead h b map d.length with
        | error e' =>
          rw [hl] at he
          injection he with he
          subst he
          exact describes_bad
        | ok l =>
          rw [hl] at he
          simp only at he ⊢
          split at he
          · exact nomatch he
          · rename_i hn
            rw [if_neg hn, indexed_error he]
            exact describes_bad

/-- a DOS 3.3 file whose list begins in a sector that no disk has: 16 times 40 is more than 560 -/
example : ∃ s t u, ({ filename := [0x41], track := 40, sector := 0, numSectors := 2, isSane := true } : DDirent).verboseSeg (fun _ => "no such sector".toList) 560 (List.replicate 512 0) = .ok s ∧
    s.info = .ok t ∧ readError t = some (u, "no such sector".toList) ∧ readVerbose u = some (.nothing "A".toList) := by
  have h : ({ filename := [0x41], track := 40, sector := 0, numSectors := 2, isSane := true } : DDirent).getFile 560 (List.replicate 512 0) = .error .byteNotInFile := by
    rfl
  exact ((C123_unreadable (fun _ => "no such sector".toList) _).2.1 _ _ _ h).1 rfl (by decide) (by decide)

end Atr
