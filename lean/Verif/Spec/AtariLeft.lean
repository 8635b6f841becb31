import Verif.Spec.Atari
/-!
# Entries after the end of an Atari DOS directory

An entry with flag 0 ends the directory.  The definitions look at the sixteen bytes of the entries only.
-/
namespace Atr

/-- the entry is used by a file: bit 6 of the flag -/
def liveEntry (e : Bytes) : Bool := (e.getD 0 0).toNat.testBit 6

/-- the entry does not end the directory -/
def goesOn (e : Bytes) : Bool := e.getD 0 0 != 0

/-- the name in bytes 5-12 with the extension in bytes 13-15 -/
def entryName (e : Bytes) : Bytes :=
  let ext := rstripWs (rstripNul (slice e 13 16))
  rstripWs (rstripNul (slice e 5 13)) ++ (if ext = [] then [] else 0x2e :: ext)

/-- first sector and number of sectors are possible on the disk -/
def entryFits (h : AHeader) (e : Bytes) : Bool :=
  decide (1 ≤ le16 (e.getD 3 0) (e.getD 4 0) ∧ le16 (e.getD 3 0) (e.getD 4 0) ≤ h.maxSectors ∧ le16 (e.getD 1 0) (e.getD 2 0) ≤ h.maxSectors)

/-- the entries of the directory -/
def directoryEntries (h : AHeader) (b : Bytes) : List Bytes := (rawEntries h b).takeWhile goesOn

/-- The entries of files that come back when a file is added: if every entry of the directory belongs to a file and the
new entry is the last one of its sector, the used entries that follow it up to the next one with flag 0. -/
def comesBack (h : AHeader) (b : Bytes) : List Bytes :=
  let n := (directoryEntries h b).length + 1
  if (directoryEntries h b).all liveEntry ∧ 16 * n % h.sectorSize = 0 then
    (((rawEntries h b).drop n).takeWhile goesOn).filter liveEntry
  else []

end Atr
