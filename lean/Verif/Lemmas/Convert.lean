import Verif.Lemmas.Path
import Verif.Lemmas.CkRxn
import Verif.Spec.Convert
/-! # Lemmas on the conversion command -/
namespace Verif
open Spec

theorem LastPart_basename {p name : Text} (h : LastPart p name) : basename p = name := by
  obtain ⟨h1, rfl | ⟨dir, rfl⟩⟩ := h
  · exact basename_bare h1
  · exact basename_dir h1

theorem lastPart_unique {p n n' : Text} (h : LastPart p n) (h' : LastPart p n') : n = n' := by
  rw [← LastPart_basename h, LastPart_basename h']

theorem lastPart_join (path : Text) {name : Text} (h : '/' ∉ name) : LastPart (joinPath path name) name := by
  unfold joinPath
  split
  · exact ⟨h, .inl rfl⟩
  · split
    · exact ⟨h, .inl rfl⟩
    · split
      · rename_i hl
        refine ⟨h, .inr ⟨path.dropLast, ?_⟩⟩
        have := List.dropLast_append_getLast? '/' hl
        conv_lhs => rw [← this]
        simp
      · exact ⟨h, .inr ⟨path, rfl⟩⟩

theorem splitext_nondot {p : Text} (h : (splitext p).2 ≠ []) : ∃ c ∈ (splitext p).1, c ≠ '.' := by
  unfold splitext at h ⊢
  dsimp only at h ⊢
  split at h
  · rename_i rest hr
    split at h
    · rename_i ha
      rw [if_pos ha]
      obtain ⟨c, hc, hne⟩ := List.any_eq_true.1 ha
      exact ⟨c, List.mem_reverse.2 ((List.takeWhile_prefix _).subset hc), by simpa using hne⟩
    · exact absurd rfl h
  · exact absurd rfl h

/-- empty or ending with the end of a line -/
def Ended (t : Text) : Prop := t = [] ∨ t.getLast? = some '\n'

theorem ended_append {a b : Text} (ha : Ended a) (hb : Ended b) : Ended (a ++ b) := by
  rcases hb with rfl | hb
  · simpa using ha
  · right
    rw [List.getLast?_append, hb]
    rfl

theorem ended_nl (a : Text) : Ended (a ++ "\n".toList) := .inr (by simp)

theorem ended_slash (a : Text) : Ended (a ++ " /\n".toList) := .inr (by simp)

theorem ended_flatten {ts : List Text} (h : ∀ t ∈ ts, Ended t) : Ended ts.flatten := by
  induction ts with
  | nil => exact .inl rfl
  | cons t ts ih =>
      rw [List.flatten_cons]
      exact ended_append (h t (by simp)) (ih fun x hx => h x (by simp [hx]))

theorem buildFalloff_ended {rp : ℚ → Text} {ps : List ℚ} {fn t : Text} (h : buildFalloff rp ps fn = .ok t) :
    Ended t := by
  unfold buildFalloff at h
  split at h
  · split at h
    · cases h; exact ended_slash _
    · cases h
  · split at h
    · split at h
      · cases h; exact ended_slash _
      · cases h
    · cases h

theorem falloffLine_ended {rp : ℚ → Text} {ps : List ℚ} {fn t : Text} (h : falloffLine rp fn ps = .ok t) :
    Ended t := by
  unfold falloffLine at h
  split at h
  · cases h; exact .inl rfl
  · exact buildFalloff_ended h

theorem plogLines_ended {rp : ℚ → Text} {n : Int} : ∀ {rs : List (ℚ × ArrRate ℚ)} {t : Text},
    plogLines rp n rs = .ok t → Ended t
  | [], t, h => by cases h; exact .inl rfl
  | pk :: rs, t, h => by
      rw [plogLines] at h
      split at h
      · cases h
      · rename_i u hu
        cases hr : plogLines rp n rs with
        | error e => rw [hr] at h; cases h
        | ok x =>
            rw [hr] at h
            cases h
            refine ended_append ?_ (plogLines_ended hr)
            unfold plogLine at hu
            cases hb : buildArrhenius pk.2 n "pressure-dependent-Arrhenius".toList with
            | error e => rw [hb] at hu; cases hu
            | ok a => rw [hb] at hu; cases hu; exact ended_slash _

theorem map_ok' {α β : Type} {x : Except Err α} {f : α → β} {b : β} (h : x.map f = .ok b) :
    ∃ a, x = .ok a ∧ f a = b := by
  cases x with
  | error e => cases h
  | ok a => cases h; exact ⟨a, rfl, rfl⟩

theorem auxLines_ended {rp : ℚ → Text} {r : Rxn ℚ} {t : Text} (h : auxLines rp r = .ok t) : Ended t := by
  unfold auxLines at h
  split at h
  · split at h
    · cases h
    · rename_i a _
      obtain ⟨f, hf, rfl⟩ := map_ok' h
      exact ended_append (ended_slash _) (falloffLine_ended hf)
  · split at h
    · cases h
    · rename_i a _
      obtain ⟨f, hf, rfl⟩ := map_ok' h
      exact ended_append (ended_slash _) (falloffLine_ended hf)
  · exact plogLines_ended h
  · cases h
    refine ended_append (ended_slash _) (ended_flatten ?_)
    intro t ht
    obtain ⟨row, -, rfl⟩ := List.mem_map.1 ht
    exact ended_slash _
  · cases h; exact .inl rfl

theorem rxnText_ended {rp : ℚ → Text} {names : List Text} {r : Rxn ℚ} {t : Text}
    (h : rxnText rp names r = .ok t) : Ended t := by
  unfold rxnText at h
  split at h
  · cases h
  · split at h
    · cases h
    · rename_i x hx
      cases h
      refine ended_append (ended_append (ended_append (ended_nl _) ?_) (auxLines_ended hx)) ?_
      · unfold efficiencyLine
        split
        · exact .inl rfl
        · dsimp only
          split
          · exact .inl rfl
          · exact ended_nl _
      · split
        · exact .inr (by decide)
        · exact .inl rfl

/-- a model file whose reactions could not all be written stops at the end of a line -/
theorem modelText_stops {rp : ℚ → Text} {s : Soln ℚ} {t : Text} {e : Err}
    (h : modelText rp s = (t, some e)) : t.getLast? = some '\n' := by
  unfold modelText at h
  dsimp only at h
  split at h
  · rename_i u e' hw
    cases h
    obtain ⟨pre, x, post, ts, -, -, h3, rfl⟩ := writeAll_error hw
    have hts : Ended ts.flatten := by
      apply ended_flatten
      intro t ht
      clear hw
      induction h3 with
      | nil => cases ht
      | cons h1 _ ih =>
          rcases List.mem_cons.1 ht with rfl | ht
          · exact rxnText_ended h1
          · exact ih ht
    rcases hts with h0 | h0
    · rw [h0, List.append_nil, List.getLast?_append]
      rfl
    · rw [List.getLast?_append, h0]
      rfl
  · cases h

/-- a complete model file ends with `END` -/
theorem modelText_ends {rp : ℚ → Text} {s : Soln ℚ} {t : Text} (h : modelText rp s = (t, none)) :
    t.getLast? = some 'D' := by
  unfold modelText at h
  dsimp only at h
  split at h
  · cases h
  · cases h
    rw [List.getLast?_append]
    rfl

theorem writeAll_fails {α : Type} {f : α → Except Err Text} {xs : List α} {x : α} (hx : x ∈ xs)
    (h : ∃ e, f x = .error e) : ∃ e, (writeAll f xs).2 = some e := by
  cases hw : (writeAll f xs).2 with
  | some e => exact ⟨e, rfl⟩
  | none =>
      obtain ⟨ts, h1, -⟩ := writeAll_ok (f := f) (xs := xs) (t := (writeAll f xs).1) (by rw [← hw])
      obtain ⟨e, he⟩ := h
      exfalso
      clear hw
      induction h1 with
      | nil => cases hx
      | cons h2 _ ih =>
          rcases List.mem_cons.1 hx with rfl | hx
          · rw [he] at h2; cases h2
          · exact ih hx

/-- the files that `writeCk` may change -/
theorem writeCk_files {rp : ℚ → Text} {s : Soln ℚ} {fs : Files} {name path g : Text}
    (hname : name ≠ []) (h1 : g ≠ joinPath path name)
    (h2 : g ≠ (splitext (joinPath path name)).1 ++ "_thermo.dat".toList)
    (h3 : g ≠ (splitext (joinPath path name)).1 ++ "_transport.dat".toList) :
    (writeCk rp s fs name path false false).2 g = fs g := by
  unfold writeCk
  simp only [if_neg hname]
  generalize (splitext (joinPath path name)).1 ++ "_thermo.dat".toList = f1 at h2
  generalize (splitext (joinPath path name)).1 ++ "_transport.dat".toList = f2 at h3
  simp only [Bool.false_eq_true, if_false, Bool.not_false, Bool.true_and]
  (repeat' split) <;> simp [Files.put, h1, h2, h3]

/-- the model file that `writeCk` leaves -/
theorem writeCk_inp {rp : ℚ → Text} {s : Soln ℚ} {fs : Files} {name path : Text} (hname : name ≠ [])
    (h2 : joinPath path name ≠ (splitext (joinPath path name)).1 ++ "_thermo.dat".toList)
    (h3 : joinPath path name ≠ (splitext (joinPath path name)).1 ++ "_transport.dat".toList) :
    (writeCk rp s fs name path false false).2 (joinPath path name) = some (modelText rp s).1 := by
  unfold writeCk
  simp only [if_neg hname]
  generalize (splitext (joinPath path name)).1 ++ "_thermo.dat".toList = f1 at h2
  generalize (splitext (joinPath path name)).1 ++ "_transport.dat".toList = f2 at h3
  simp only [Bool.false_eq_true, if_false, Bool.not_false, Bool.true_and]
  (repeat' split) <;> simp [Files.put, h2, h3]

end Verif
