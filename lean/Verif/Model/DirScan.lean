/-!
# Model of the scan of a directory

`FileSystem/L1Portability/Environment/Linux/DirectoryScanner.cpp` and `Directory.cpp`, without a sorter.  The file system is given: the names in a directory that
match a mask, in the order of `scandir` with `alphasort`, and the size of a file.  Memory is always available.
-/
namespace Verif.DirScan

abbrev Text := List Char

/-- The operating system: `scandir` with the filter of `DirectoryScanner.cpp:57-60`, `none` when it fails, and `stat`. -/
structure FileSystem where
  names : Text → Text → Option (List Text)
  size : Text → Option Nat

/-- `DirectoryScanner.h`: the list, the size and the path. -/
structure Scanner where
  files : List Text
  size : Nat
  path : Option Text

/-- `DirectoryScanner.cpp:68-77` `CleanUp`. -/
def empty : Scanner := ⟨[], 0, none⟩

/-- `DirectoryScanner.cpp:86-125`: the path ends with the separator; no path is the root. -/
def basePath (path : Option Text) : Text :=
  match path with
  | none => ['/']
  | some [] => ['/']
  | some p => if p.getLast? = some '/' then p else p ++ ['/']

/-- `DirectoryScanner.cpp:146`: the bytes of the local path, with the one that ends it. -/
def room : Nat := 512

/-- `DirectoryScanner.cpp:159-216`: the loop, over the names from the last one; `none` when the path does not fit. -/
def loop (fs : FileSystem) (base : Text) : List Text → Scanner → Option (Scanner × Bool)
  | [], s => some (s, true)
  | name :: rest, s =>
    if room < (base ++ name).length + 1 then none
    else match fs.size (base ++ name) with
      | none => some (s, false)
      | some n =>
        let size := if name ≠ ['.'] ∧ name ≠ ['.', '.'] then (s.size + n) % 2 ^ 64 else s.size
        loop fs base rest { s with files := (base ++ name) :: s.files, size := size }

/-- `DirectoryScanner.cpp:80-232` `Scan`; what the object held before does not matter. -/
def scan (fs : FileSystem) (path : Option Text) (mask : Option Text) (_before : Scanner) : Option (Scanner × Bool) :=
  let base := basePath path
  match fs.names base (mask.getD ['*']) with
  | none => some (empty, false)
  | some names =>
    match loop fs base names.reverse { empty with path := some base } with
    | none => none
    | some (_, false) => some (empty, false)
    | some (s, true) => some (s, true)

/-- What a thread does with the mask that all the scanners of the program share (`DirectoryScanner.cpp:54`): it stores its mask (`137-141`), lists the directory
with the mask that is stored (`152`), and frees it (`228`). -/
inductive Act where
  | store (mask : Text)
  | list
  | free

/-- The masks that the listings use in a schedule; `none` when a listing uses a mask that was freed. -/
def masks : Option Text → List Act → Option (List Text)
  | _, [] => some []
  | _, .store m :: rest => masks (some m) rest
  | none, .list :: _ => none
  | some m, .list :: rest => (masks (some m) rest).map (m :: ·)
  | _, .free :: rest => masks none rest

end Verif.DirScan
