import Verif.Model.Path
/-!
# Lemmas about path strings
-/
namespace Verif

theorem takeWhile_stop {p : Char → Bool} {l k : List Char} (hl : ∀ c ∈ l, p c = true)
    (hk : ∀ c, k.head? = some c → p c = false) : (l ++ k).takeWhile p = l := by
  induction l with
  | nil =>
      cases k with
      | nil => rfl
      | cons c k => simp [hk c rfl]
  | cons a l ih =>
      simp only [List.cons_append]
      rw [List.takeWhile_cons_of_pos (hl a (by simp)), ih fun c hc => hl c (by simp [hc])]

theorem dropWhile_stop {p : Char → Bool} {l k : List Char} (hl : ∀ c ∈ l, p c = true)
    (hk : ∀ c, k.head? = some c → p c = false) : (l ++ k).dropWhile p = k := by
  induction l with
  | nil =>
      cases k with
      | nil => rfl
      | cons c k => simp [hk c rfl]
  | cons a l ih =>
      simp only [List.cons_append]
      rw [List.dropWhile_cons_of_pos (hl a (by simp)), ih fun c hc => hl c (by simp [hc])]

/-- `dir/name` and `name` have base name `name` -/
theorem basename_dir {dir name : Text} (h : '/' ∉ name) : basename (dir ++ '/' :: name) = name := by
  unfold basename
  rw [List.reverse_append, List.reverse_cons, List.append_assoc]
  rw [takeWhile_stop (l := name.reverse)]
  · simp
  · intro c hc
    have : c ≠ '/' := by rintro rfl; exact h (List.mem_reverse.1 hc)
    simpa using this
  · intro c hc
    simp only [List.singleton_append, List.head?_cons, Option.some.injEq] at hc
    simp [← hc]

theorem basename_bare {name : Text} (h : '/' ∉ name) : basename name = name := by
  unfold basename
  have := takeWhile_stop (p := fun c => c != '/') (l := name.reverse) (k := []) (by
    intro c hc
    have : c ≠ '/' := by rintro rfl; exact h (List.mem_reverse.1 hc)
    simpa using this) (by simp)
  rw [List.append_nil] at this
  rw [this, List.reverse_reverse]

theorem basename_no_slash (p : Text) : '/' ∉ basename p := by
  intro h
  have h1 := List.all_eq_true.1 List.all_takeWhile _ (List.mem_reverse.1 h)
  simp at h1

theorem splitext_spec {base ext : Text} (hb : ∃ c ∈ base, c ≠ '.') (hs : '/' ∉ base)
    (he : ∀ c ∈ ext, c ≠ '.' ∧ c ≠ '/') :
    splitext (base ++ '.' :: ext) = (base, '.' :: ext) := by
  have hp : ∀ c ∈ ext.reverse, (c != '.' && c != '/') = true := by
    intro c hc
    have := he c (List.mem_reverse.1 hc)
    simpa using this
  have hstop : ∀ c, (('.' :: base.reverse).head? = some c) → (c != '.' && c != '/') = false := by
    intro c hc
    simp only [List.head?_cons, Option.some.injEq] at hc
    simp [← hc]
  have hr : (base ++ '.' :: ext).reverse = ext.reverse ++ '.' :: base.reverse := by simp
  unfold splitext
  simp only [hr]
  rw [dropWhile_stop hp hstop, takeWhile_stop hp hstop]
  have hall : base.reverse.takeWhile (fun c => c != '/') = base.reverse := by
    have := takeWhile_stop (p := fun c => c != '/') (l := base.reverse) (k := []) (by
      intro c hc
      have : c ≠ '/' := by rintro rfl; exact hs (List.mem_reverse.1 hc)
      simpa using this) (by simp)
    rwa [List.append_nil] at this
  have hany : (base.reverse.takeWhile (fun c => c != '/')).any (fun c => c != '.') = true := by
    rw [hall, List.any_eq_true]
    obtain ⟨c, hc, hne⟩ := hb
    exact ⟨c, List.mem_reverse.2 hc, by simpa using hne⟩
  simp only [hany, if_true, List.reverse_reverse]

theorem splitext_dir {dir base ext : Text} (hd : dir = [] ∨ dir.getLast? = some '/')
    (hb : ∃ c ∈ base, c ≠ '.') (hs : '/' ∉ base) (he : ∀ c ∈ ext, c ≠ '.' ∧ c ≠ '/') :
    splitext (dir ++ base ++ '.' :: ext) = (dir ++ base, '.' :: ext) := by
  have hp : ∀ c ∈ ext.reverse, (c != '.' && c != '/') = true := by
    intro c hc
    have := he c (List.mem_reverse.1 hc)
    simpa using this
  have hstop : ∀ c, (('.' :: (dir ++ base).reverse).head? = some c) →
      (c != '.' && c != '/') = false := by
    intro c hc
    simp only [List.head?_cons, Option.some.injEq] at hc
    simp [← hc]
  have hr : (dir ++ base ++ '.' :: ext).reverse = ext.reverse ++ '.' :: (dir ++ base).reverse := by
    simp
  unfold splitext
  simp only [hr]
  rw [dropWhile_stop hp hstop, takeWhile_stop hp hstop]
  have hall : (dir ++ base).reverse.takeWhile (fun c => c != '/') = base.reverse := by
    rw [List.reverse_append]
    refine takeWhile_stop (fun c hc => ?_) (fun c hc => ?_)
    · have : c ≠ '/' := by rintro rfl; exact hs (List.mem_reverse.1 hc)
      simpa using this
    · rcases hd with rfl | hd
      · cases hc
      · rw [List.head?_reverse, hd, Option.some.injEq] at hc
        simp [← hc]
  have hany : ((dir ++ base).reverse.takeWhile (fun c => c != '/')).any (fun c => c != '.') =
      true := by
    rw [hall, List.any_eq_true]
    obtain ⟨c, hc, hne⟩ := hb
    exact ⟨c, List.mem_reverse.2 hc, by simpa using hne⟩
  simp only [hany, if_true, List.reverse_reverse]

theorem splitext_join {path base ext : Text} (hb : ∃ c ∈ base, c ≠ '.') (hs : '/' ∉ base)
    (he : ∀ c ∈ ext, c ≠ '.' ∧ c ≠ '/') :
    splitext (joinPath path (base ++ '.' :: ext)) = (joinPath path base, '.' :: ext) := by
  have hne : base ≠ [] := by rintro rfl; obtain ⟨c, hc, -⟩ := hb; cases hc
  have hh : (base ++ '.' :: ext).head? = base.head? := by
    cases base with
    | nil => exact absurd rfl hne
    | cons a b => rfl
  have h1 : base.head? ≠ some '/' := by
    intro h
    cases base with
    | nil => cases h
    | cons a b => simp only [List.head?_cons, Option.some.injEq] at h; exact hs (by simp [h])
  unfold joinPath
  rw [hh, if_neg h1, if_neg h1]
  by_cases hp : path = []
  · rw [if_pos hp, if_pos hp]
    exact splitext_spec hb hs he
  · rw [if_neg hp, if_neg hp]
    by_cases hl : path.getLast? = some '/'
    · rw [if_pos hl, if_pos hl, ← List.append_assoc]
      exact splitext_dir (Or.inr hl) hb hs he
    · rw [if_neg hl, if_neg hl]
      have := splitext_dir (dir := path ++ ['/']) (Or.inr (by simp)) hb hs he
      simpa using this

/-- a name without a dot has no extension -/
theorem splitext_no_dot {name : Text} (h : '.' ∉ name) : splitext name = (name, []) := by
  unfold splitext
  simp only
  split
  · rename_i rest hd
    exfalso
    apply h
    have : '.' ∈ name.reverse.dropWhile (fun c => c != '.' && c != '/') := by rw [hd]; simp
    exact List.mem_reverse.1 ((List.dropWhile_sublist _).subset this)
  · rfl

/-- a name that begins with its last dot, apart from further dots, has no extension -/
theorem splitext_hidden {dots ext : Text} (hd : ∀ c ∈ dots, c = '.') (he : ∀ c ∈ ext, c ≠ '.' ∧ c ≠ '/') :
    splitext (dots ++ '.' :: ext) = (dots ++ '.' :: ext, []) := by
  have hp : ∀ c ∈ ext.reverse, (c != '.' && c != '/') = true := by
    intro c hc
    have := he c (List.mem_reverse.1 hc)
    simpa using this
  have hstop : ∀ c, (('.' :: dots.reverse).head? = some c) → (c != '.' && c != '/') = false := by
    intro c hc
    simp only [List.head?_cons, Option.some.injEq] at hc
    simp [← hc]
  have hr : (dots ++ '.' :: ext).reverse = ext.reverse ++ '.' :: dots.reverse := by simp
  unfold splitext
  simp only [hr]
  rw [dropWhile_stop hp hstop]
  have hany : (dots.reverse.takeWhile (fun c => c != '/')).any (fun c => c != '.') = false := by
    rw [List.any_eq_false]
    intro c hc
    have := hd c (List.mem_reverse.1 ((List.takeWhile_sublist _).subset hc))
    simp [this]
  simp only [hany, Bool.false_eq_true, if_false]

/-- the two parts make up the name, and the first is a piece of it -/
theorem splitext_parts (p : Text) : (splitext p).1 ++ (splitext p).2 = p := by
  unfold splitext
  simp only
  split
  · rename_i rest hd
    split
    · have h := List.takeWhile_append_dropWhile (p := fun c => c != '.' && c != '/') (l := p.reverse)
      rw [hd] at h
      have h2 := congrArg List.reverse h
      simpa using h2
    · simp
  · simp

theorem splitext_no_slash {p : Text} (h : '/' ∉ p) : '/' ∉ (splitext p).1 := by
  intro h1
  apply h
  rw [← splitext_parts p]
  exact List.mem_append_left _ h1

end Verif
