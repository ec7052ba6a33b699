import Verif.Model.DirScan
import Verif.Spec.DirScan
/-!
# C131: the scan of a directory
-/
namespace Verif.DirScan
open Spec

private theorem base_spec (path : Text) : directory path (basePath (some path)) := by
  unfold directory basePath
  cases path with
  | nil => exact Or.inr ⟨rfl, rfl⟩
  | cons a l =>
    left
    refine ⟨by simp, ?_⟩
    dsimp only
    by_cases h : (a :: l).getLast? = some '/'
    · rw [if_pos h]
      obtain ⟨q, hq⟩ := List.getLast?_eq_some_iff.1 h
      exact ⟨Or.inl rfl, ⟨q, hq⟩, fun h => absurd rfl h⟩
    · rw [if_neg h]
      refine ⟨Or.inr rfl, ⟨_, rfl⟩, ?_⟩
      rintro _ ⟨q, hq⟩
      exact h (List.getLast?_eq_some_iff.2 ⟨q, hq⟩)

private theorem total_append (size : Text → Option Nat) (base : Text) : ∀ a b : List Text,
    total size base (a ++ b) = total size base a + total size base b
  | [], b => by simp [total]
  | x :: a, b => by simp only [List.cons_append, total, total_append size base a b]; omega

private theorem loop_ok (fs : FileSystem) (base : Text) : ∀ (names : List Text) (s : Scanner), fits base names →
    (∀ name ∈ names, fs.size (base ++ name) ≠ none) →
    ∃ s', loop fs base names s = some (s', true) ∧ s'.path = s.path ∧ s'.files = (names.reverse.map (base ++ ·)) ++ s.files ∧
      s'.size % 2 ^ 64 = (s.size + total fs.size base names) % 2 ^ 64 ∧ (s.size < 2 ^ 64 → s'.size < 2 ^ 64)
  | [], s, _, _ => ⟨s, rfl, rfl, by simp, by simp [total], id⟩
  | name :: rest, s, hf, hs => by
    have h1 : (base ++ name).length ≤ 511 := hf name (by simp)
    unfold loop
    rw [if_neg (by unfold room; omega)]
    cases hn : fs.size (base ++ name) with
    | none => exact absurd hn (hs name (by simp))
    | some n =>
      dsimp only
      obtain ⟨s', e, p, f, z, b⟩ := loop_ok fs base rest
        { s with files := (base ++ name) :: s.files,
                 size := if name ≠ ['.'] ∧ name ≠ ['.', '.'] then (s.size + n) % 2 ^ 64 else s.size }
        (fun x hx => hf x (List.mem_cons_of_mem _ hx)) (fun x hx => hs x (List.mem_cons_of_mem _ hx))
      refine ⟨s', e, p, ?_, ?_, ?_⟩
      · rw [f]; simp
      · rw [z]
        rw [total, hn]
        dsimp only [Option.getD]
        generalize total fs.size base rest = tl
        have e1 : ".".toList = ['.'] := rfl
        have e2 : "..".toList = ['.', '.'] := rfl
        rw [e1, e2]
        by_cases hd : name ≠ ['.'] ∧ name ≠ ['.', '.']
        · rw [if_pos hd, if_neg (by rintro (h | h); exact hd.1 h; exact hd.2 h)]
          omega
        · rw [if_neg hd, if_pos (by
            by_cases hh : name = ['.']
            · exact Or.inl hh
            · refine Or.inr ?_
              by_cases hh2 : name = ['.', '.']
              · exact hh2
              · exact absurd ⟨hh, hh2⟩ hd)]
          omega
      · intro hlt
        refine b ?_
        dsimp only
        split
        · omega
        · exact hlt

private theorem loop_bad (fs : FileSystem) (base : Text) : ∀ (names : List Text) (s : Scanner), fits base names →
    (∃ name ∈ names, fs.size (base ++ name) = none) → ∃ s', loop fs base names s = some (s', false)
  | [], _, _, h => by simp at h
  | name :: rest, s, hf, hs => by
    have h1 : (base ++ name).length ≤ 511 := hf name (by simp)
    unfold loop
    rw [if_neg (by unfold room; omega)]
    cases hn : fs.size (base ++ name) with
    | none => exact ⟨s, rfl⟩
    | some n =>
      refine loop_bad fs base rest _ (fun x hx => hf x (List.mem_cons_of_mem _ hx)) ?_
      obtain ⟨x, hx, hx2⟩ := hs
      rcases List.mem_cons.1 hx with rfl | hx
      · rw [hn] at hx2; simp at hx2
      · exact ⟨x, hx, hx2⟩

/-- **C131.** When the directory can be listed, each of its files has a size and each path fits, the scan succeeds and gives the paths of exactly the files that
match, each once and in alphabetical order, that is in the order of the listing, and their total size; whatever the object held before. -/
theorem c131_scan_partial (fs : FileSystem) (path : Text) (mask : Option Text) (before : Scanner) :
    ∃ base, directory path base ∧ ∀ names, fs.names base (mask.getD "*".toList) = some names → fits base names →
      (∀ name ∈ names, fs.size (base ++ name) ≠ none) →
      ∃ s, scan fs (some path) mask before = some (s, true) ∧ s.files = names.map (base ++ ·) ∧ s.path = some base ∧
        s.size = total fs.size base names % 2 ^ 64 := by
  refine ⟨basePath (some path), base_spec path, ?_⟩
  intro names hn hf hs
  obtain ⟨s, e, p, f, z, b⟩ := loop_ok fs (basePath (some path)) names.reverse { empty with path := some (basePath (some path)) }
    (fun x hx => hf x (by simpa using hx)) (fun x hx => hs x (by simpa using hx))
  have e0 : "*".toList = ['*'] := rfl
  rw [e0] at hn
  refine ⟨s, by simp only [scan, hn, e], by simpa [empty] using f, p, ?_⟩
  have hlt : s.size < 2 ^ 64 := b (by simp [empty])
  rw [← Nat.mod_eq_of_lt hlt, z]
  have hrev : ∀ l : List Text, total fs.size (basePath (some path)) l.reverse = total fs.size (basePath (some path)) l := by
    intro l
    induction l with
    | nil => rfl
    | cons a l ih => rw [List.reverse_cons, total_append, ih]; simp only [total]; omega
  rw [hrev]
  simp [empty]

/-- **C131.** Otherwise, when each path fits, the scan fails and the object is empty. -/
theorem c131_refused (fs : FileSystem) (path : Text) (mask : Option Text) (before : Scanner) :
    ∃ base, directory path base ∧
      (fs.names base (mask.getD "*".toList) = none → scan fs (some path) mask before = some (⟨[], 0, none⟩, false)) ∧
      ∀ names, fs.names base (mask.getD "*".toList) = some names → fits base names → (∃ name ∈ names, fs.size (base ++ name) = none) →
        scan fs (some path) mask before = some (⟨[], 0, none⟩, false) := by
  have e0 : "*".toList = ['*'] := rfl
  rw [e0]
  refine ⟨basePath (some path), base_spec path, ?_, ?_⟩
  · intro h
    simp only [scan, h]
    rfl
  · intro names hn hf hs
    obtain ⟨s, e⟩ := loop_bad fs (basePath (some path)) names.reverse { empty with path := some (basePath (some path)) }
      (fun x hx => hf x (by simpa using hx)) (by simpa using hs)
    simp only [scan, hn, e]
    rfl

/-- **C131 fails for long paths**: when the path of the last file has 512 characters or more, the scan writes outside of its memory. -/
theorem c131_long_fails (fs : FileSystem) (path : Text) (mask : Option Text) (before : Scanner) {names : List Text} {last : Text}
    (hn : fs.names (basePath (some path)) (mask.getD ['*']) = some (names ++ [last])) (hl : 512 ≤ (basePath (some path) ++ last).length) :
    scan fs (some path) mask before = none := by
  have : loop fs (basePath (some path)) (names ++ [last]).reverse { empty with path := some (basePath (some path)) } = none := by
    rw [List.reverse_append]
    simp only [List.reverse_cons, List.reverse_nil, List.nil_append, List.cons_append]
    unfold loop
    rw [if_pos (by unfold room; omega)]
  simp only [scan, hn, this]

/-- **C131 fails for two threads**: the listing of one may use the mask of the other, or a mask that was freed. -/
theorem c131_threads_fails (a b : Text) :
    masks none [.store a, .store b, .list, .free, .store a, .list] = some [b, a] ∧
    masks none [.store a, .store b, .list, .free, .list] = none := ⟨rfl, rfl⟩

/-- **C131.** A scan with no path, or with an empty one, is a scan of the root. -/
theorem c131_root (fs : FileSystem) (mask : Option Text) (before : Scanner) :
    scan fs none mask before = scan fs (some "/".toList) mask before ∧ scan fs (some []) mask before = scan fs (some "/".toList) mask before :=
  ⟨rfl, rfl⟩

/-- Two files and the directory itself. -/
example : (scan ⟨fun _ _ => some [['.'], ['a'], ['b']], fun _ => some 10⟩ (some ['d']) none empty).map (fun r => (r.1.files, r.1.size, r.2)) =
    some ([['d', '/', '.'], ['d', '/', 'a'], ['d', '/', 'b']], 20, true) := by decide

end Verif.DirScan
