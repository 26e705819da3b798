import Verif.Model.Amid
import Verif.Lemmas.Rerun
import Verif.Spec.Amid
/-!
# What a run reads of the saved samples
-/
namespace Verif
open Spec

variable {ι π φ : Type} {S : AllSims ι π φ} {m : Mech} {c : Conds ι π φ} {p : Par} {d d' : Disk}

theorem samplePart_asked {κ} (T : Sims κ) (m : Mech) (cases : List κ) (p : Par) (h : cases ≠ [] → Agree T.kind d d') :
    samplePart T m cases p d = samplePart T m cases p d' := by
  by_cases hc : cases = []
  · subst hc; rfl
  · exact samplePart_congr T m cases p (h hc)

theorem sample_asked (hK : Kinds S) (h : ∀ k, Asked c k → Agree k d d') : sample S m c p d = sample S m c p d' := by
  rw [sample_eq hK, sample_eq hK,
    samplePart_asked S.ign m c.ign p (fun g => by rw [hK.ign]; exact h .ign g),
    samplePart_asked S.psr m c.psr p (fun g => by rw [hK.psr]; exact h .psr g),
    samplePart_asked S.flame m c.flame p (fun g => by rw [hK.flame]; exact h .flame g)]

theorem metricsPart_asked {κ} (T : Sims κ) (init : Nat → List PyF) (m : Mech) (cases : List κ) (p : Par) (reuse : Bool)
    (h : cases ≠ [] → Agree T.kind d d') : metricsPart T init m cases p reuse d = metricsPart T init m cases p reuse d' := by
  by_cases hc : cases = []
  · subst hc; rfl
  · unfold metricsPart
    rw [h hc true]

theorem sampleMetrics_asked (hK : Kinds S) (reuse : Bool) (h : ∀ k, Asked c k → Agree k d d') :
    sampleMetrics S m c p reuse d = sampleMetrics S m c p reuse d' := by
  unfold sampleMetrics
  rw [metricsPart_asked S.ign _ m c.ign p reuse (fun g => by rw [hK.ign]; exact h .ign g),
    metricsPart_asked S.psr _ m c.psr p reuse (fun g => by rw [hK.psr]; exact h .psr g),
    metricsPart_asked S.flame _ m c.flame p reuse (fun g => by rw [hK.flame]; exact h .flame g)]

theorem sampleMetrics_fresh (d d' : Disk) : sampleMetrics S m c p false d = sampleMetrics S m c p false d' := rfl

/-- `sample` writes files of the phenomena asked for -/
theorem sample_files (hK : Kinds S) : ∀ e ∈ (sample S m c p d).evs, Asked c e.file.kind := by
  have key : ∀ {κ} {T : Sims κ} {cases : List κ} {e : Ev}, e ∈ (samplePart T m cases p d).evs →
      e.file.kind = T.kind ∧ cases ≠ [] := by
    intro κ T cases e he
    refine ⟨samplePart_files T m cases p d e he, fun hc => ?_⟩
    subst hc
    simp [samplePart] at he
  have k1 : ∀ e ∈ (samplePart S.ign m c.ign p d).evs, Asked c e.file.kind := fun e he => by
    obtain ⟨h1, h2⟩ := key he; rw [h1, hK.ign]; exact h2
  have k2 : ∀ e ∈ (samplePart S.psr m c.psr p d).evs, Asked c e.file.kind := fun e he => by
    obtain ⟨h1, h2⟩ := key he; rw [h1, hK.psr]; exact h2
  have k3 : ∀ e ∈ (samplePart S.flame m c.flame p d).evs, Asked c e.file.kind := fun e he => by
    obtain ⟨h1, h2⟩ := key he; rw [h1, hK.flame]; exact h2
  intro e he
  rw [sample_eq hK] at he
  split at he
  · exact k1 e he
  · split at he
    · rcases List.mem_append.1 he with h | h
      · exact k1 e h
      · exact k2 e h
    · have : e ∈ (samplePart S.ign m c.ign p d).evs ++ (samplePart S.psr m c.psr p d).evs ++
          (samplePart S.flame m c.flame p d).evs := by
        split at he <;> exact he
      rcases List.mem_append.1 this with h | h
      · rcases List.mem_append.1 h with h | h
        · exact k1 e h
        · exact k2 e h
      · exact k3 e h

/-- writes to files of other phenomena -/
theorem agree_apart {evs : List Ev} {c' : Conds ι π φ} (ha : ∀ k, ¬ (Asked c k ∧ Asked c' k))
    (h : ∀ e ∈ evs, Asked c' e.file.kind) (d : Disk) : ∀ k, Asked c k → Agree k (applyEvs d evs) d := by
  intro k hk o
  refine applyEvs_untouched evs d ⟨k, o⟩ (fun e he g => ha k ⟨hk, ?_⟩)
  have := h e he
  rw [g] at this
  exact this

end Verif
