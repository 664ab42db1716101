import Verif.Cases.Files
import Verif.Props.Tools
import Verif.Props.Tools2
import Verif.Props.Tools3
import Verif.Props.Tools4
import Verif.Props.Pprint
/-
Concrete cases for the tools.
-/
namespace Gsb

open scoped UInt8.CommRing

/-- The three files of `exF`, a permutation `p` of four, block sizes `s`, indices from one in `o1` and `o2`, floating point numbers (of two
bytes) in `d`. -/
def exToolFiles : FS := fun n =>
  if n = "r" then some (packed (idx 4) [3, 1, 1, 0]) else if n = "c" then some (packed (idx 4) [0, 2, 1, 2])
  else if n = "v" then some (packed byteCodec [2, 7, 5, 255]) else if n = "p" then some (packed (idx 4) [2, 0, 3, 1])
  else if n = "s" then some (packed (idx 4) [3, 1]) else if n = "o1" then some (packed (idx 4) [1, 5, 3])
  else if n = "o2" then some (packed (idx 4) [7]) else if n = "d" then some [1, 2, 3, 4, 5, 6] else none

theorem exToolFiles3 : Files3 4 byteCodec exToolFiles "r" "c" "v" exF := ⟨rfl, rfl, rfl⟩

/-- Two bytes. -/
def pairCodec : Codec (UInt8 × UInt8) := ⟨2, fun p => [p.1, p.2], fun l => (l.headD 0, l.tail.headD 0)⟩

/-! ### one2zero, double2float, permute -/

/-- The bytes of the two files. -/
def exOnes (n : String) : Bytes := if n = "o1" then packed (idx 4) [1, 5, 3] else packed (idx 4) [7]

example : ∃ fs', one2zero exDisk exToolFiles ["o1", "o2"] = .ok (0, fs') := by
  obtain ⟨fs', h, -⟩ := C52_converts exDisk exToolFiles ["o1", "o2"] (by decide) exOnes (by decide) (by decide) (by decide) (by decide) (by decide)
    (fun n _ => ⟨rfl, by unfold exOnes; split <;> decide, by unfold exOnes; split <;> decide⟩)
  have := C73_one2zero _ _ _ _ _ h
  exact ⟨fs', h⟩
/-- `r` holds a zero. -/
example := C52_rejects exDisk exToolFiles ["o1", "r", "o2"] "r" (by decide) (by decide) (by decide) (.inr ⟨_, rfl, by decide, by decide⟩)
/-- `q` does not exist. -/
example := C52_rejects exDisk exToolFiles ["o1", "q", "o2"] "q" (by decide) (by decide) (by decide) (.inl rfl)
example := C52_large exDisk exToolFiles "o1" _ (by decide) rfl (by decide) ⟨rfl, by decide, by decide⟩

example : ∃ fs', double2float pairCodec byteCodec Prod.fst exDisk exToolFiles ["d", "o1"] = .ok (0, fs') := by
  obtain ⟨fs', h, -⟩ := C60_converts (cd := pairCodec) (by decide) byteCodec_exact Prod.fst exDisk exToolFiles ["d", "o1"] (by decide)
    (fun n => if n = "d" then [1, 2, 3, 4, 5, 6] else packed (idx 4) [1, 5, 3]) (by decide) (by decide) (by decide)
    (fun n _ => ⟨rfl, by split <;> decide, by split <;> decide⟩)
  have := C73_double2float _ _ _ _ _ _ _ _ h
  exact ⟨fs', h⟩
example := C60_missing_destroys pairCodec byteCodec Prod.fst exDisk exToolFiles "q" ["d"] (by decide) rfl rfl

example : ∃ fs', permuteTool false false exDisk exToolFiles ["r", "c", "p"] = .ok (0, fs') := by
  obtain ⟨fs', _, _, h, -⟩ := C61_permutes false exDisk exToolFiles "r" "c" "p" _ _ _ rfl rfl rfl (by decide) (by decide) (by decide)
    (.inl (by decide)) (by decide) (by decide) (by decide) (by decide) ⟨rfl, by decide, by decide⟩ ⟨rfl, by decide, by decide⟩
  have := C73_permute _ _ _ _ _ _ _ h
  exact ⟨fs', h⟩
example := C61_inverse false exDisk exToolFiles "r" "c" "p" _ _ _ rfl rfl rfl (by decide) (by decide) (by decide)
  (.inl (by decide)) (by decide) (by decide) (by decide) (by decide) (by decide) (by decide) ⟨rfl, by decide, by decide⟩ ⟨rfl, by decide, by decide⟩
/-- With `s` as the permutation. -/
example := C61_out_of_range false exDisk exToolFiles "r" "c" "s" _ _ rfl rfl (.inl (by decide)) (by decide) (by decide)

/-! ### convert -/

example : ∃ fs', convertTool byteCodec exFmt exDisk exToolFiles 4 3 ["r", "c", "v", "a", "bin"] = .ok (0, fs') := by
  obtain ⟨fs', _, _, h, -⟩ := C56_convert_bin byteCodec_exact exFmt exDisk exToolFiles 4 3 "r" "c" "v" "a" exF exToolFiles3 (by decide) (by decide)
    (by decide) (by decide) (by decide) ⟨rfl, by decide, by decide⟩
  have := C73_convert _ _ _ _ _ _ _ _ h
  exact ⟨fs', h⟩
example := C56_convert_mtx byteCodec_exact exFmt exDisk exToolFiles 4 3 "r" "c" "v" "a" exF exToolFiles3 (by decide) (by decide)
  (by decide) ⟨rfl, by decide +kernel, by decide +kernel⟩
example := C56_convert_all byteCodec_exact exFmt exDisk exToolFiles 4 3 "r" "c" "v" "a" exF exToolFiles3 (by decide) (by decide)
  (by decide) ⟨rfl, by decide +kernel, by decide +kernel⟩ ⟨rfl, by decide, by decide⟩
example := C56_missing_input (cv := byteCodec) (by decide) exFmt false exDisk exToolFiles 4 3 "r" "no such file" "v" "s" "a" "bin" [] (by decide)
example := C56_refuses (cv := byteCodec) exFmt exDisk exToolFiles 4 3 ["r", "c", "v", "a", "both"] (.inr ⟨_, _, _, _, _, rfl, .inl (by decide)⟩)
example := C56_refuses (cv := byteCodec) exFmt exDisk exToolFiles 4 3 ["q", "c", "v", "a", "bin"] (.inr ⟨_, _, _, _, _, rfl, .inr (.inr ⟨by decide, rfl⟩)⟩)
example : ∃ fs', convertBlockedTool byteCodec false exDisk exToolFiles 5 3 ["r", "c", "v", "s", "a"] = .ok (0, fs') := by
  obtain ⟨fs', _, h, -⟩ := C56_convert_blocked byteCodec_exact false exDisk exToolFiles 5 3 "r" "c" "v" "s" "a" exF _ exToolFiles3 rfl (by decide)
    (by decide) (by decide) (by decide) (by decide) (by decide) (by decide) (by decide) ⟨rfl, by decide, by decide⟩
  have := C73_convert_blocked _ _ _ _ _ _ _ _ h
  exact ⟨fs', h⟩

/-! ### expanded, prepare -/

theorem exSizes : SizesFit (items (idx 4) (packed (idx 4) [3, 1])) 2 := ⟨by decide, by decide, by decide, by decide, by decide⟩

example : ∃ fs', expandedMain byteCodec (fun _ => "4") false exDisk exToolFiles ["r", "c", "v", "s", "a"] = .ok (0, fs') := by
  obtain ⟨fs', _, _, h, -⟩ := C62_expanded byteCodec_exact (fun _ => "4") false exDisk exToolFiles "r" "c" "v" "s" "a" [] exF _ 2 _ _ exToolFiles3 rfl
    (by decide) (by decide) exSizes (by decide) rfl rfl (by decide) (by decide) ⟨rfl, by decide, by decide⟩
  have := C73_expanded _ _ _ _ _ _ _ h
  exact ⟨fs', h⟩
/-- A name of 252 characters. -/
example := C62_name_overflow byteCodec_exact (fun _ => "4") false exDisk exToolFiles "r" "c" "v" "s" (String.ofList (List.replicate 252 'x')) [] exF _ 2
  exToolFiles3 rfl (by decide) (by decide) exSizes (by decide) (by decide +kernel)
example := C73_expanded_missing (cv := byteCodec) (fun _ => "4") false exDisk exToolFiles "q" "c" "v" "s" "a" [] (by decide) _ _ rfl (.inl (by decide)) rfl rfl

/-- `exF` with rows and columns renamed. -/
def exPermuted : List (Ent UInt8) := [⟨1, 2, 2⟩, ⟨0, 3, 7⟩, ⟨0, 0, 5⟩, ⟨2, 3, 255⟩]

theorem exPrepare (out : String) (hout : out.utf8ByteSize + 10 < 200) :
    PrepareRun byteCodec (fun _ => "4") exDisk exToolFiles "r" "c" "v" "p" "s" out [2, 0, 3, 1] [3, 1] 2 4 exF exPermuted :=
  { files := exToolFiles3, perm := rfl, permFits := by decide, sizesFile := rfl,
    sizesFit := ⟨by decide, by decide, by decide, by decide, by decide⟩, nonempty := by decide, bytes := by decide, words := by decide,
    indices := by decide,
    permuted := .cons ⟨rfl, rfl, rfl⟩ (.cons ⟨rfl, rfl, rfl⟩ (.cons ⟨rfl, rfl, rfl⟩ (.cons ⟨rfl, rfl, rfl⟩ .nil))),
    inside := by decide, slotSize := by decide +kernel, tmp := by decide, name := by
      have : ("4" : String).utf8ByteSize = 1 := by decide
      constructor <;> omega,
    diskRows := ⟨rfl, by decide, by decide⟩, diskCols := ⟨rfl, by decide, by decide⟩,
    disk1 := ⟨rfl, by decide, by decide⟩, disk2 := ⟨rfl, by decide, by decide⟩, disk3 := ⟨rfl, by decide, by decide⟩,
    disk4 := ⟨rfl, by decide, by decide⟩ }

example : ∃ fs', prepareTool byteCodec (fun _ => "4") false exDisk exToolFiles 4 3 ["r", "c", "v", "p", "s", "a"] = .ok (0, fs') := by
  obtain ⟨fs', _, _, _, _, h, -⟩ := C63_prepare byteCodec_exact false 4 3 (exPrepare "a" (by decide)) (by decide)
  have := C73_prepare _ _ _ _ _ _ _ _ _ h
  exact ⟨fs', h⟩
example := C63_own_directory byteCodec_exact false 4 3 (exPrepare (tmpDir ++ "a") (by decide)) (by decide)
/-- Room for two indices, four are needed. -/
example := C63_no_room byteCodec (fun _ => "4") false ⟨fun _ => true, 8, 1000⟩ exToolFiles 4 3 "r" "c" "v" "p" "s" "a" [2, 0, 3, 1] exF exPermuted rfl rfl
  rfl (by decide) (by decide) (by decide) (by decide) (exPrepare "a" (by decide)).permuted (by decide) (by decide) (.inr (.inr (by decide)))

/-! ### sort -/

example : ∃ fs', sortTool byteCodec (fun t => UInt8.ofNat t.length) exFmt (fun _ _ l => .ok l) 1 false exDisk exToolFiles ["r", "c", "v"] = .ok (0, fs') := by
  obtain ⟨fs', _, h, -⟩ := C64_sort_files byteCodec_exact (fun t => UInt8.ofNat t.length) exFmt (fun _ _ l => .ok l) 1 false exDisk exToolFiles "r" "c" "v" exF
    exToolFiles3 (by decide) (by decide) (by decide) (by decide) ⟨rfl, by decide, by decide⟩ ⟨rfl, by decide, by decide⟩ ⟨rfl, by decide, by decide⟩
  have := C73_sort _ _ _ _ _ _ _ _ _ _ h
  exact ⟨fs', h⟩
example := C64_sort_mtx byteCodec (fun t => UInt8.ofNat t.length) exFmt (fun _ _ l => .ok l) 1 (by decide) false exDisk (exNone.set "a.mtx" (exFile "general").text)
  "a.mtx" (exFile_ok "general" (.inl rfl)) (.inl rfl) rfl (by decide) (by decide) (by decide) rfl (by decide) ⟨rfl, by decide +kernel, by decide +kernel⟩
example := C64_sort_blocks_oob byteCodec_exact (fun t => UInt8.ofNat t.length) exFmt (fun _ _ l => .ok l) 1 false exDisk exToolFiles "r" "c" "v" "s" exF _
  exToolFiles3 (by decide) (by decide) rfl (by decide) (by decide)

/-! ### pprint -/

example := C72_triples byteCodec_exact (exNone.set "a.bin" (binFile 4 byteCodec 4 3 exF)) "a.bin" 4 3 exF (by decide) (by decide) (by decide) (by decide) rfl
example := C72_blocks byteCodec_exact (exNone.set "a.block" (blockFile 4 byteCodec 4 3 2 2 2 [(0, ⟨0, 1, 7⟩), (3, ⟨3, 2, 5⟩)])) "a.block" ["all"] (by decide)
  (by decide) 4 3 2 2 2 _ (by decide) (by decide) (by decide) (by decide) (by decide) (by decide) (by decide) rfl
example := C72_missing (cv := byteCodec) exNone "a.block" ["vector"] rfl

end Gsb
