import Verif.Postprocess.Sensors

/-! # C86: one file of sensors per process

With "add processor rank to sensor files" the names of the files are changed by `importSensorsFromFiles`
(/repo/src/managers/postprocess/postprocessManager_sensors.hpp:298-316), and the points read by each process are looked for by
`locateSensorPoints` with `checkprocs` set (394, 1074-1087). -/

namespace MrHyDE.Postprocess.Names

open MrHyDE.Postprocess.Sensors

/-- The ending of the name, ".dat"; src/managers/postprocess/postprocessManager_sensors.hpp:300-313. -/
def ext : List Char := ['.', 'd', 'a', 't']

/-- `std::string::resize`: shortened, or filled up with null characters; used at postprocessManager_sensors.hpp:301, 309. -/
def resize (s : List Char) (n : Nat) : List Char := s.take n ++ List.replicate (n - s.length) (Char.ofNat 0)

/-- `ends_with(".dat")`; postprocessManager_sensors.hpp:300, 308. -/
def endsDat (s : List Char) : Bool := ext.isSuffixOf s

/-- The new name of the file of points; postprocessManager_sensors.hpp:300-305.  `rank` is the decimal form of the rank. -/
def pointsName (rank points : List Char) : List Char :=
  (if endsDat points then resize points (points.length - 4) else points) ++ '.' :: rank ++ ext

/-- The new name of the file of data, which is shortened to a length computed from the *new* name of the file of points;
postprocessManager_sensors.hpp:307-315. -/
def dataName (rank points data : List Char) : List Char :=
  if data = [] then [] else
    (if endsDat data then resize data ((pointsName rank points).length - 4) else data) ++ '.' :: rank ++ ext

/-- The name a user expects: the rank put before the extension. [specification, no code] -/
def wanted (rank base : List Char) : List Char := base ++ '.' :: rank ++ ext

theorem endsDat_append (base : List Char) : endsDat (base ++ ext) = true := by
  unfold endsDat
  rw [List.isSuffixOf_iff_suffix]
  exact List.suffix_append _ _

theorem resize_append (base t : List Char) : resize (base ++ t) base.length = base := by
  unfold resize
  rw [List.take_left', List.length_append, Nat.sub_eq_zero_of_le (by omega)]
  · simp
  · rfl

theorem resize_length (s : List Char) (n : Nat) : (resize s n).length = n := by
  unfold resize
  rw [List.length_append, List.length_take, List.length_replicate]
  omega

/-- C86: the file of points of every process is the given name with the rank before the extension. -/
theorem C86_points (rank base : List Char) : pointsName rank (base ++ ext) = wanted rank base ∧
    (endsDat base = false → pointsName rank base = wanted rank base) := by
  constructor
  · unfold pointsName wanted
    rw [if_pos (endsDat_append base)]
    have : (base ++ ext).length - 4 = base.length := by simp [ext]
    rw [this, resize_append]
  · intro h
    unfold pointsName wanted
    rw [h]
    rfl

example : pointsName "12".toList "sensors.dat".toList = "sensors.12.dat".toList := by decide +kernel

/-- C86, partial: a file of data given without extension gets the right name.  Missing: one given with it, see `C86_data_iff`. -/
theorem C86_data_partial (rank points data : List Char) (hd : data ≠ []) (he : endsDat data = false) :
    dataName rank points data = wanted rank data := by
  unfold dataName wanted
  rw [if_neg hd, he]
  rfl

example : dataName "3".toList "p.dat".toList "measured".toList = "measured.3.dat".toList := by decide +kernel

/-- C86: a file of data given with the extension gets the right name exactly when its name is longer than that of the file of
points by one more than the number of digits of the rank. -/
theorem C86_data_iff (rank points base : List Char) :
    dataName rank (points ++ ext) (base ++ ext) = wanted rank base ↔ base.length = points.length + 1 + rank.length := by
  have hl : (pointsName rank (points ++ ext)).length - 4 = points.length + 1 + rank.length := by
    rw [(C86_points rank points).1]
    simp [wanted, ext]
    omega
  unfold dataName
  rw [if_neg (by simp [ext]), if_pos (endsDat_append base), hl]
  unfold wanted
  constructor
  · intro h
    have := congrArg List.length h
    simp only [List.length_append, List.length_cons, resize_length] at this
    omega
  · intro h
    rw [← h, resize_append]

/-- C86 is false: if the name of the data is the shorter one it is filled up with null characters, which end the name for the
file system: what is opened is the name without rank and extension. -/
theorem C86_null_violated (rank points base : List Char) (h : base.length + 4 < points.length + 1 + rank.length) :
    base ++ ext ++ [Char.ofNat 0] <+: dataName rank (points ++ ext) (base ++ ext) := by
  have hl : (pointsName rank (points ++ ext)).length - 4 = points.length + 1 + rank.length := by
    rw [(C86_points rank points).1]
    simp [wanted, ext]
    omega
  unfold dataName
  rw [if_neg (by simp [ext]), if_pos (endsDat_append base), hl]
  unfold resize
  have h4 : (base ++ ext).length = base.length + 4 := by simp [ext]
  rw [List.take_of_length_le (by omega), h4]
  obtain ⟨k, hk⟩ : ∃ k : Nat, points.length + 1 + rank.length - (base.length + 4) = k + 1 := ⟨_, (Nat.succ_pred (by omega)).symm⟩
  rw [hk, List.replicate_succ]
  exact ⟨List.replicate k (Char.ofNat 0) ++ '.' :: rank ++ ext, by simp⟩

/-- [case] Points in "locations.dat" and data in "d.dat". -/
example : dataName "0".toList "locations.dat".toList "d.dat".toList =
    "d.dat".toList ++ List.replicate 6 (Char.ofNat 0) ++ ".0.dat".toList := by decide +kernel

/-- C86 is false: the points "p.dat" and the data "data.dat" of process 0; the other processes look for yet other names. -/
theorem C86_data_violated : dataName "0".toList "p.dat".toList "data.dat".toList = "dat.0.dat".toList ∧
    "dat.0.dat".toList ≠ wanted "0".toList "data".toList := by decide +kernel

/-- C86 is false with several processes: of the sensors with the same number in the files of the different processes only that of
the lowest rank is kept, though they are different points, each found by its own process. -/
theorem C86_dropped (found : List Bool) (r s : Nat) (hs : s < r) (hf : found[s]? = some true) (hr : r < found.length) :
    (keep found)[r]? = some false := by
  have hl := ((lowest_spec found).1 s hf).1
  unfold keep
  rw [List.getElem?_map, List.getElem?_range hr, Option.map_some]
  have : ¬ r = lowest found := by omega
  simp [this]

/-- Every process finds the first point of its own file. -/
example : keep [true, true, true] = [true, false, false] := by decide +kernel

end MrHyDE.Postprocess.Names
