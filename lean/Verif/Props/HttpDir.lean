import Verif.Spec.HttpDir
import Verif.Props.CStrings
set_option linter.unusedSimpArgs false
set_option linter.unusedVariables false
set_option maxRecDepth 8000
/-! # C86: the files that are served to the web -/
namespace Verif.HttpDir
open Verif.CStrings Verif.Spec.CStrings Verif.Spec.HttpDir Verif.Props.CStrings

/-! ## Content types -/

private theorem check_iff (name : List Nat) (hn : ∀ c ∈ name, 0 < c ∧ c < 256) (e : List Nat) (he : ∀ c ∈ e, 0 < c ∧ c < 256)
    (hl : lower e = e) : checkExtension name e = true ↔ ∃ stem x, name = stem ++ x ∧ lower x = e := by
  unfold checkExtension
  rw [Bool.and_eq_true, decide_eq_true_eq, beq_iff_eq]
  constructor
  · rintro ⟨h1, h2⟩
    have hh : Holds (name.drop (name.length - e.length) ++ [0]) (name.drop (name.length - e.length)) :=
      ⟨fun c hc => hn c (List.mem_of_mem_drop hc), [], rfl⟩
    have := (c76_compare_no_case e.length _ _ _ e hh ⟨he, [], rfl⟩).1.mp h2
    rw [List.take_of_length_le (by simp; omega), List.take_of_length_le (Nat.le_refl _), hl] at this
    exact ⟨name.take (name.length - e.length), _, (List.take_append_drop _ _).symm, this⟩
  · rintro ⟨stem, x, rfl, hx⟩
    have hxl : x.length = e.length := by rw [← hx]; simp [lower]
    have hd : (stem ++ x).drop ((stem ++ x).length - e.length) = x := by
      rw [List.length_append, hxl, Nat.add_sub_cancel, List.drop_left]
    refine ⟨by rw [List.length_append]; omega, ?_⟩
    rw [hd]
    have hh : Holds (x ++ [0]) x := ⟨fun c hc => hn c (by simp [hc]), [], rfl⟩
    apply (c76_compare_no_case e.length _ _ x e hh ⟨he, [], rfl⟩).1.mpr
    rw [List.take_of_length_le (by omega), List.take_of_length_le (Nat.le_refl _), hl, hx]

private theorem ends_iff (name : List Nat) (hn : ∀ c ∈ name, 0 < c ∧ c < 256) (p : String × String) (hp : p ∈ types) :
    checkExtension name (bytes p.1) = true ↔ EndsWith name p.1 := by
  have h : ∀ p ∈ types, (∀ c ∈ bytes p.1, 0 < c ∧ c < 256) ∧ lower (bytes p.1) = bytes p.1 := by decide +kernel
  exact check_iff name hn (bytes p.1) (h p hp).1 (h p hp).2

/-- **C86.**  The content type is the one of the ending of the name, in any case, and `binary` for all other names. -/
theorem c86_type (name : List Nat) (hn : ∀ c ∈ name, 0 < c ∧ c < 256) :
    (∀ p ∈ types, EndsWith name p.1 → mime name = p.2.toList.map Char.toNat) ∧
    ((∀ p ∈ types, ¬ EndsWith name p.1) → mime name = "binary".toList.map Char.toNat) := by
  have key : ∀ p ∈ types, ∀ q ∈ types, EndsWith name p.1 → EndsWith name q.1 → p = q := by
    rintro p hp q hq ⟨s, e, e1, e2⟩ ⟨s', e', e1', e2'⟩
    have a1 : lower name = lower s ++ bytes p.1 := by rw [e1, ← show lower e = bytes p.1 from e2]; simp [lower]
    have a2 : lower name = lower s' ++ bytes q.1 := by rw [e1', ← show lower e' = bytes q.1 from e2']; simp [lower]
    have b1 : bytes p.1 <:+ lower name := ⟨_, a1.symm⟩
    have b2 : bytes q.1 <:+ lower name := ⟨_, a2.symm⟩
    have hs : bytes p.1 <:+ bytes q.1 ∨ bytes q.1 <:+ bytes p.1 := by
      rcases Nat.le_total (bytes p.1).length (bytes q.1).length with h | h
      · exact Or.inl (List.suffix_of_suffix_length_le b1 b2 h)
      · exact Or.inr (List.suffix_of_suffix_length_le b2 b1 h)
    have hd : ∀ p ∈ types, ∀ q ∈ types, bytes p.1 <:+ bytes q.1 ∨ bytes q.1 <:+ bytes p.1 → p = q := by decide +kernel
    exact hd p hp q hq hs
  have ck := fun p (hp : p ∈ types) => ends_iff name hn p hp
  have c1 := ck (".html", "text/html") (by decide)
  have c2 := ck (".htm", "text/html") (by decide)
  have c3 := ck (".txt", "text/plain") (by decide)
  have c4 := ck (".csv", "text/csv") (by decide)
  have c5 := ck (".css", "text/css") (by decide)
  have c6 := ck (".gif", "image/gif") (by decide)
  have c7 := ck (".jpeg", "image/jpg") (by decide)
  have c8 := ck (".jpg", "image/jpg") (by decide)
  have c9 := ck (".jnlp", "image/jnlp") (by decide)
  have c10 := ck (".js", "application/x-javascript") (by decide)
  constructor
  · intro p hp he
    have hno : ∀ q ∈ types, q ≠ p → checkExtension name (bytes q.1) = false := by
      intro q hq hne
      cases h : checkExtension name (bytes q.1) with
      | false => rfl
      | true => exact absurd (key q hq p hp ((ck q hq).mp h) he) hne
    have hyes := (ck p hp).mpr he
    have n1 := fun h => hno (".html", "text/html") (by decide) h
    have n2 := fun h => hno (".htm", "text/html") (by decide) h
    have n3 := fun h => hno (".txt", "text/plain") (by decide) h
    have n4 := fun h => hno (".csv", "text/csv") (by decide) h
    have n5 := fun h => hno (".css", "text/css") (by decide) h
    have n6 := fun h => hno (".gif", "image/gif") (by decide) h
    have n7 := fun h => hno (".jpeg", "image/jpg") (by decide) h
    have n8 := fun h => hno (".jpg", "image/jpg") (by decide) h
    have n9 := fun h => hno (".jnlp", "image/jnlp") (by decide) h
    have n10 := fun h => hno (".js", "application/x-javascript") (by decide) h
    clear ck key hno c1 c2 c3 c4 c5 c6 c7 c8 c9 c10
    simp only [types, List.mem_cons, List.not_mem_nil, or_false] at hp
    unfold mime
    rcases hp with rfl | rfl | rfl | rfl | rfl | rfl | rfl | rfl | rfl | rfl
    · simp only [hyes, Bool.true_or, if_true]; rfl
    · simp only [hyes, Bool.or_true, if_true]; rfl
    · simp only [hyes, n1 (by decide), n2 (by decide), Bool.or_self, Bool.false_eq_true, if_false, if_true]; rfl
    · simp only [hyes, n1 (by decide), n2 (by decide), n3 (by decide), Bool.or_self, Bool.false_eq_true, if_false, if_true]; rfl
    · simp only [hyes, n1 (by decide), n2 (by decide), n3 (by decide), n4 (by decide), Bool.or_self, Bool.false_eq_true, if_false, if_true]; rfl
    · simp only [hyes, n1 (by decide), n2 (by decide), n3 (by decide), n4 (by decide), n5 (by decide), Bool.or_self, Bool.false_eq_true, if_false, if_true]; rfl
    · simp only [hyes, n1 (by decide), n2 (by decide), n3 (by decide), n4 (by decide), n5 (by decide), n6 (by decide), Bool.or_self, Bool.true_or, Bool.false_eq_true, if_false, if_true]; rfl
    · simp only [hyes, n1 (by decide), n2 (by decide), n3 (by decide), n4 (by decide), n5 (by decide), n6 (by decide), Bool.or_self, Bool.or_true, Bool.false_eq_true, if_false, if_true]; rfl
    · simp only [hyes, n1 (by decide), n2 (by decide), n3 (by decide), n4 (by decide), n5 (by decide), n6 (by decide), n7 (by decide), n8 (by decide), Bool.or_self, Bool.false_eq_true, if_false, if_true]; rfl
    · simp only [hyes, n1 (by decide), n2 (by decide), n3 (by decide), n4 (by decide), n5 (by decide), n6 (by decide), n7 (by decide), n8 (by decide), n9 (by decide), Bool.or_self, Bool.false_eq_true, if_false, if_true]; rfl
  · intro h
    have hno : ∀ q ∈ types, checkExtension name (bytes q.1) = false := by
      intro q hq
      cases h' : checkExtension name (bytes q.1) with
      | false => rfl
      | true => exact absurd ((ck q hq).mp h') (h q hq)
    unfold mime
    have n1 := hno (".html", "text/html") (by decide)
    have n2 := hno (".htm", "text/html") (by decide)
    have n3 := hno (".txt", "text/plain") (by decide)
    have n4 := hno (".csv", "text/csv") (by decide)
    have n5 := hno (".css", "text/css") (by decide)
    have n6 := hno (".gif", "image/gif") (by decide)
    have n7 := hno (".jpeg", "image/jpg") (by decide)
    have n8 := hno (".jpg", "image/jpg") (by decide)
    have n9 := hno (".jnlp", "image/jnlp") (by decide)
    have n10 := hno (".js", "application/x-javascript") (by decide)
    simp only at n1 n2 n3 n4 n5 n6 n7 n8 n9 n10
    simp only [n1, n2, n3, n4, n5, n6, n7, n8, n9, n10, Bool.or_self, Bool.false_eq_true, if_false]
    rfl

/-! ## Which files -/

private theorem parts_ne (s : List Nat) : parts s ≠ [] := by
  cases s with
  | nil => simp [parts]
  | cons c s =>
    rw [parts]
    split
    · simp
    · split <;> simp

private theorem parts_append (a b : List Nat) : parts (a ++ 47 :: b) = parts a ++ parts b := by
  induction a with
  | nil => simp [parts]
  | cons c a ih =>
    rw [List.cons_append, parts, parts, ih]
    by_cases hc : c = '/'.toNat
    · rw [if_pos hc, if_pos hc]; rfl
    · rw [if_neg hc, if_neg hc]
      cases h : parts a with
      | nil => exact absurd h (parts_ne a)
      | cons p ps => rfl

private theorem parts_word (p : List Nat) (h : 47 ∉ p) : parts p = [p] := by
  induction p with
  | nil => rfl
  | cons c p ih =>
    simp only [List.mem_cons, not_or] at h
    have hc : ¬ c = '/'.toNat := fun e => h.1 e.symm
    rw [parts, if_neg hc, ih h.2]

private theorem takeWhile_all (p : List Nat) (hp : 0 ∉ p) : p.takeWhile (· ≠ 0) = p := by
  induction p with
  | nil => rfl
  | cons c p ih =>
    simp only [List.mem_cons, not_or] at hp
    have : c ≠ 0 := fun e => hp.1 e.symm
    rw [List.takeWhile_cons, if_pos (by simpa using this), ih hp.2]

private theorem full_eq (base p : List Nat) (hp : 0 ∉ p) : fullPath base (some p) = base ++ '/'.toNat :: p := by
  simp only [fullPath]
  rw [takeWhile_all p hp]
  simp

/-- **C86.**  A file that can be opened is sent with its type, without its contents for `HEAD`; a path which is not given is
`index.html`; a file which cannot be opened is 404 as long as only the directory itself was asked. -/
theorem c86_served (opens : List Nat → Bool) (base : List Nat) (head : Bool) (p : List Nat) (hp : 0 ∉ p) (b : Bool) :
    (∀ n, n = base ++ '/'.toNat :: p → opens n = true →
      getAsText opens base b head (some p) = (.file n (mime n) (!head), true)) ∧
    (∀ n, n = base ++ '/'.toNat :: "index.html".toList.map Char.toNat → opens n = true →
      getAsText opens base b head none = (.file n (mime n) (!head), true)) ∧
    (opens (base ++ '/'.toNat :: p) = false → getAsText opens base true head (some p) = (.notFound, false)) := by
  have e := full_eq base p hp
  refine ⟨?_, ?_, ?_⟩
  · rintro n rfl h
    unfold getAsText serveFile
    rw [e, if_pos h]
  · rintro n rfl h
    have e2 : fullPath base none = base ++ '/'.toNat :: "index.html".toList.map Char.toNat := by
      unfold fullPath; simp [bytes]
    unfold getAsText serveFile
    rw [e2, if_pos h]
  · intro h
    unfold getAsText serveFile
    rw [e, h]; rfl

private theorem full_place (base p : List Nat) (hp : 0 ∉ p) : place (fullPath base (some p)) = (parts p).foldl enter (place base) := by
  have e : fullPath base (some p) = base ++ 47 :: p := full_eq base p hp
  rw [e, place, parts_append, List.foldl_append]; rfl

/-- **C86 (partial).**  A path without a part `..` stays in the directory: it is the place of the directory followed by the
parts of the path, those that are empty or a dot left out.  Missing: paths with `..`, see `c86_outside_fails`. -/
theorem c86_inside_partial (base p : List Nat) (hp : 0 ∉ p) (hdd : ['.'.toNat, '.'.toNat] ∉ parts p) :
    place (fullPath base (some p)) = place base ++ (parts p).filter (fun x => x ≠ [] ∧ x ≠ ['.'.toNat]) ∧
    Inside base (fullPath base (some p)) := by
  have key : ∀ (l acc : List (List Nat)), ['.'.toNat, '.'.toNat] ∉ l →
      l.foldl enter acc = acc ++ l.filter (fun x => x ≠ [] ∧ x ≠ ['.'.toNat]) := by
    intro l
    induction l with
    | nil => intro acc _; simp
    | cons x l ih =>
      intro acc h
      simp only [List.mem_cons, not_or] at h
      have hx : ¬ x = ['.'.toNat, '.'.toNat] := fun e => h.1 e.symm
      rw [List.foldl_cons, ih _ h.2, enter]
      by_cases h1 : x = [] ∨ x = ['.'.toNat]
      · rw [if_pos h1, List.filter_cons_of_neg]
        rcases h1 with rfl | rfl <;> simp
      · rw [if_neg h1, if_neg hx, List.filter_cons_of_pos]
        · simp
        · simp only [not_or] at h1
          simpa using h1
  have := key (parts p) (place base) hdd
  rw [← full_place base p hp] at this
  exact ⟨this, ⟨_, this.symm⟩⟩

private theorem up (k : Nat) (rest : List Nat) : parts ((List.replicate k [46, 46, 47]).flatten ++ rest) =
    List.replicate k [46, 46] ++ parts rest := by
  induction k with
  | zero => rfl
  | succ k ih =>
    rw [List.replicate_succ, List.flatten_cons, List.append_assoc]
    have : ([46, 46, 47] : List Nat) ++ ((List.replicate k [46, 46, 47]).flatten ++ rest) =
        [46, 46] ++ 47 :: ((List.replicate k [46, 46, 47]).flatten ++ rest) := rfl
    rw [this, parts_append, ih, parts_word [46, 46] (by decide)]
    rfl

private theorem climb (k : Nat) : ∀ acc : List (List Nat), acc.length ≤ k → (List.replicate k [46, 46]).foldl enter acc = [] := by
  induction k with
  | zero => intro acc h; exact List.eq_nil_of_length_eq_zero (l := acc) (by omega)
  | succ k ih =>
    intro acc h
    rw [List.replicate_succ, List.foldl_cons]
    apply ih
    show (enter acc [46, 46]).length ≤ k
    have : enter acc [46, 46] = acc.dropLast := rfl
    rw [this, List.length_dropLast]; omega

/-- **C86, every file of the machine is served.**  Whatever the directory, for every file there is a path that leads to it, and
the file is sent if it can be opened. -/
theorem c86_outside_fails (base target : List Nat) (ht : 0 ∉ target) :
    ∃ p, 0 ∉ p ∧ place (fullPath base (some p)) = place target ∧
      ∀ (opens : List Nat → Bool) (b head : Bool), opens (fullPath base (some p)) = true →
        ∃ m, getAsText opens base b head (some p) = (.file (fullPath base (some p)) m (!head), true) := by
  have h0 : 0 ∉ (List.replicate (place base).length ([46, 46, 47] : List Nat)).flatten ++ target := by
    intro h
    rcases List.mem_append.mp h with h | h
    · rw [List.mem_flatten] at h
      obtain ⟨l, hl, hm⟩ := h
      rw [(List.mem_replicate.mp hl).2] at hm
      simp at hm
    · exact ht h
  refine ⟨_, h0, ?_, ?_⟩
  · rw [full_place _ _ h0, up, List.foldl_append, climb _ _ (Nat.le_refl _)]
    rfl
  · intro opens b head h
    exact ⟨mime _, by unfold getAsText serveFile; rw [if_pos h]⟩

/-! ## Histories -/

private theorem run_append (opens : List Nat → Bool) (base : List Nat) : ∀ (qs rs : List Request) (b : Bool),
    ∃ b', run opens base b (qs ++ rs) = run opens base b qs ++ run opens base b' rs ∧ (b = false → b' = false) ∧
      (b' = true → ∀ q ∈ qs, ∃ h p, q = .direct h p) ∧ (b = true → (∀ q ∈ qs, ∃ h p, q = .direct h p) → b' = true) := by
  intro qs
  induction qs with
  | nil => intro rs b; exact ⟨b, rfl, fun h => h, fun _ _ hq => by simp at hq, fun h _ => h⟩
  | cons q qs ih =>
    intro rs b
    obtain ⟨b', e, h1, h2, h3⟩ := ih rs (step opens base b q).2
    refine ⟨b', by rw [List.cons_append, run, run, e]; rfl, ?_, ?_, ?_⟩
    · intro h
      apply h1
      cases q with
      | page hd p => rfl
      | direct hd p => exact h
    · intro h x hx
      rcases List.mem_cons.mp hx with rfl | hx
      · cases x with
        | direct hd p => exact ⟨hd, p, rfl⟩
        | page hd p => have := h1 rfl; rw [h] at this; simp at this
      · exact h2 h x hx
    · intro h hq
      apply h3 _ (fun x hx => hq x (by simp [hx]))
      obtain ⟨hd, p, rfl⟩ := hq q (by simp)
      exact h

/-- **C86 (partial).**  As long as the page of the browser was not asked, a file that is missing is answered with 404. -/
theorem c86_missing_partial (opens : List Nat → Bool) (base : List Nat) (before : List Request) (head : Bool) (p : Option (List Nat))
    (hb : ∀ q ∈ before, ∃ h x, q = .direct h x) (ho : opens (fullPath base p) = false) :
    run opens base true (before ++ [.direct head p]) = run opens base true before ++ [.notFound] := by
  obtain ⟨b', e, -, -, h3⟩ := run_append opens base before [.direct head p] true
  rw [e, h3 rfl hb]
  simp [run, step, getAsText, serveFile, ho]

/-- **C86.**  The page of the browser is always answered, after every history: the file if it can be opened, else 404. -/
theorem c86_page (opens : List Nat → Bool) (base : List Nat) (before : List Request) (head : Bool) (p : Option (List Nat)) (b : Bool) :
    (opens (fullPath base p) = true → run opens base b (before ++ [.page head p]) =
      run opens base b before ++ [.file (fullPath base p) (mime (fullPath base p)) (!head)]) ∧
    (opens (fullPath base p) = false → run opens base b (before ++ [.page head p]) = run opens base b before ++ [.notFound]) := by
  obtain ⟨b', e, -⟩ := run_append opens base before [.page head p] b
  rw [e]
  exact ⟨fun h => by simp [run, step, getAsText, serveFile, h], fun h => by simp [run, step, getAsText, serveFile, h]⟩

/-- **C86, a missing file is not answered at all once the page of the browser was asked.** -/
theorem c86_silent_fails (opens : List Nat → Bool) (base : List Nat) (before between : List Request) (h1 head : Bool)
    (p1 p : Option (List Nat)) (b : Bool) (ho : opens (fullPath base p) = false) :
    ∃ l, run opens base b (before ++ .page h1 p1 :: between ++ [.direct head p]) = l ++ [.silent] := by
  obtain ⟨b', e, -, h2, -⟩ := run_append opens base (before ++ .page h1 p1 :: between) [.direct head p] b
  have hb : b' = false := by
    cases b' with
    | false => rfl
    | true =>
      obtain ⟨h, x, hx⟩ := h2 rfl (.page h1 p1) (by simp)
      simp at hx
  refine ⟨run opens base b (before ++ .page h1 p1 :: between), by rw [e, hb]; simp only [run, step, getAsText, serveFile, ho, Bool.false_eq_true, if_false]⟩

/-! The directory `/www` of a machine where `/www/index.html` and `/etc/passwd` can be read. -/

private def fs (n : List Nat) : Bool := decide (place n = place (bytes "/www/index.html") ∨ place n = place (bytes "/etc/passwd"))
private def file : Reply → Option (List Nat)
  | .file n _ _ => some n
  | _ => none
example : (run fs (bytes "/www") true [.page false none, .direct true (some (bytes "./index.html"))]).map file =
    [some (bytes "/www/index.html"), some (bytes "/www/./index.html")] := by decide +kernel
example : getAsText fs (bytes "/www") true false (some (bytes "../etc/passwd")) =
    (.file (bytes "/www/../etc/passwd") (bytes "binary") true, true) := by decide +kernel
example : mime (bytes "/www/LOGO.JpEg") = bytes "image/jpg" := by decide +kernel
example : ['.'.toNat, '.'.toNat] ∉ parts (bytes "a/./b..c") := by decide +kernel
example : run fs (bytes "/www") true [.direct false (some (bytes "x")), .page false none, .direct false (some (bytes "x"))] =
    [.notFound, .file (bytes "/www/index.html") (bytes "text/html") true, .silent] := by decide +kernel

end Verif.HttpDir
