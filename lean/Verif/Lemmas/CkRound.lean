import Verif.Spec.CkRound
import Verif.Lemmas.CkRxn
import Verif.Lemmas.Repr
/-!
# Lemmas: unit conversions in floating-point arithmetic

What is written with rounded conversions is what exact arithmetic writes for slightly different
data.
-/
namespace Verif
open Spec

variable (a : CkArith)

/-- the rate for which exact arithmetic with order `n` gives the factor computed with order `x` -/
def adjArr (k : ArrRate ℚ) (x : ℚ) (n : Int) : ArrRate ℚ :=
  ⟨a.factor k x / 1000 ^ n, k.b, a.energy k * caloriesConstant⟩

theorem adj_factor (k : ArrRate ℚ) (x : ℚ) (n : Int) : (adjArr a k x n).A * 1000 ^ n = a.factor k x := by
  unfold adjArr
  dsimp only
  have : (1000 : ℚ) ^ n ≠ 0 := zpow_ne_zero _ (by norm_num)
  field_simp

theorem adj_energy (k : ArrRate ℚ) (x : ℚ) (n : Int) :
    (adjArr a k x n).E / caloriesConstant = a.energy k := by
  unfold adjArr
  dsimp only
  have : caloriesConstant ≠ 0 := by unfold caloriesConstant; norm_num
  field_simp

/-- the adjusted reaction -/
def adjRxn (r : Rxn ℚ) : Rxn ℚ :=
  { r with rate := match r.rate with
    | .simple kind k =>
        if r.rtype = "three-body-Arrhenius".toList then .simple kind (adjArr a k (orderQ r) (orderOf r))
        else .simple kind (adjArr a k (orderQ r - 1) (orderOf r - 1))
    | .falloff sub false lo hi cs => .falloff sub false (adjArr a lo (orderQ r) (orderOf r))
        (adjArr a hi (orderQ r - 1) (orderOf r - 1)) cs
    | .falloff sub true lo hi cs => .falloff sub true (adjArr a lo (orderQ r - 1) (orderOf r - 1))
        (adjArr a hi (orderQ r - 2) (orderOf r - 2)) cs
    | .plog rates => .plog (rates.map fun pk => (pk.1, adjArr a pk.2 (orderQ r - 1) (orderOf r - 1)))
    | .cheb t p nP data => .cheb t p nP data }

theorem adj_order (r : Rxn ℚ) : orderOf (adjRxn a r) = orderOf r := rfl

theorem adj_rtype (r : Rxn ℚ) : (adjRxn a r).rtype = r.rtype := by
  unfold adjRxn
  rcases hr : r.rate with ⟨kind, k⟩ | ⟨sub, chem, lo, hi, cs⟩ | ⟨rates⟩ | ⟨t, p, nP, data⟩
  · by_cases h : r.rtype = "three-body-Arrhenius".toList
    · simp only [if_pos h]
      unfold Rxn.rtype
      simp only [hr]
    · simp only [if_neg h]
      unfold Rxn.rtype
      simp only [hr]
  · cases chem <;> (unfold Rxn.rtype; simp only [hr])
  · unfold Rxn.rtype; simp only [hr]
  · unfold Rxn.rtype; simp only [hr]

theorem arr_adj {k : ArrRate ℚ} {x : ℚ} {n : Int} {t : Text}
    (h : t = "Arrhenius".toList ∨ t = "pressure-dependent-Arrhenius".toList) :
    buildArrheniusR a k x t = buildArrhenius (adjArr a k (x - 1) (n - 1)) n t := by
  unfold buildArrheniusR buildArrhenius
  dsimp only
  rw [if_pos h, if_pos h, adj_factor, adj_energy]
  rfl

theorem arr_adj3 {k : ArrRate ℚ} {x : ℚ} {n : Int} :
    buildArrheniusR a k x "three-body-Arrhenius".toList =
      buildArrhenius (adjArr a k x n) n "three-body-Arrhenius".toList := by
  have h : ¬ ("three-body-Arrhenius".toList = "Arrhenius".toList ∨
      "three-body-Arrhenius".toList = "pressure-dependent-Arrhenius".toList) := by decide
  unfold buildArrheniusR buildArrhenius
  dsimp only
  rw [if_neg h, if_neg h, if_pos rfl, if_pos rfl, adj_factor, adj_energy]
  rfl

theorem low_adj {k : ArrRate ℚ} {x : ℚ} {n : Int} (s : Text) :
    buildFalloffArrheniusR a k x ("falloff-".toList ++ s) "low".toList =
      buildFalloffArrhenius (adjArr a k x n) n ("falloff-".toList ++ s) "low".toList := by
  unfold buildFalloffArrheniusR buildFalloffArrhenius
  dsimp only
  rw [if_neg (not_not.2 (Or.inl rfl)), if_neg (not_not.2 (Or.inl rfl)), if_pos (falloff_prefix s), if_pos (falloff_prefix s),
    if_pos rfl, if_pos rfl, adj_factor, adj_energy]
  rfl

theorem high_adj {k : ArrRate ℚ} {x : ℚ} {n : Int} (s : Text) :
    buildFalloffArrheniusR a k x ("falloff-".toList ++ s) "high".toList =
      buildFalloffArrhenius (adjArr a k (x - 1) (n - 1)) n ("falloff-".toList ++ s) "high".toList := by
  have hlow : ¬ "high".toList = "low".toList := by decide
  unfold buildFalloffArrheniusR buildFalloffArrhenius
  dsimp only
  rw [if_neg (not_not.2 (Or.inr rfl)), if_neg (not_not.2 (Or.inr rfl)), if_pos (falloff_prefix s), if_pos (falloff_prefix s),
    if_neg hlow, if_neg hlow, adj_factor, adj_energy]
  rfl

theorem clow_adj {k : ArrRate ℚ} {x : ℚ} {n : Int} (s : Text) :
    buildFalloffArrheniusR a k x ("chemically-activated-".toList ++ s) "low".toList =
      buildFalloffArrhenius (adjArr a k (x - 1) (n - 1)) n ("chemically-activated-".toList ++ s)
        "low".toList := by
  rw [show "chemically-activated-".toList ++ s = "chemically-activated".toList ++ ('-' :: s) from rfl]
  unfold buildFalloffArrheniusR buildFalloffArrhenius
  dsimp only
  rw [if_neg (not_not.2 (Or.inl rfl)), if_neg (not_not.2 (Or.inl rfl)), if_neg (chem_not_falloff _), if_neg (chem_not_falloff _),
    if_pos (chem_prefix _), if_pos (chem_prefix _), if_pos rfl, if_pos rfl, adj_factor, adj_energy]
  rfl

theorem chigh_adj {k : ArrRate ℚ} {x : ℚ} {n : Int} (s : Text) :
    buildFalloffArrheniusR a k x ("chemically-activated-".toList ++ s) "high".toList =
      buildFalloffArrhenius (adjArr a k (x - 2) (n - 2)) n ("chemically-activated-".toList ++ s)
        "high".toList := by
  rw [show "chemically-activated-".toList ++ s = "chemically-activated".toList ++ ('-' :: s) from rfl]
  have hlow : ¬ "high".toList = "low".toList := by decide
  unfold buildFalloffArrheniusR buildFalloffArrhenius
  dsimp only
  rw [if_neg (not_not.2 (Or.inr rfl)), if_neg (not_not.2 (Or.inr rfl)), if_neg (chem_not_falloff _), if_neg (chem_not_falloff _),
    if_pos (chem_prefix _), if_pos (chem_prefix _), if_neg hlow, if_neg hlow, adj_factor,
    adj_energy]
  rfl

theorem plogs_adj (x : ℚ) (n : Int) (rates : List (ℚ × ArrRate ℚ)) :
    plogLinesR a x rates =
      plogLines pyRepr n (rates.map fun pk => (pk.1, adjArr a pk.2 (x - 1) (n - 1))) := by
  induction rates with
  | nil => rfl
  | cons pk ps ih =>
      rw [List.map_cons, plogLinesR, plogLines, plogLineR, plogLine, ih,
        arr_adj a (n := n) (Or.inr rfl)]
      rfl

/-- the adjusted rate, case by case -/
theorem adj_simple3 {r : Rxn ℚ} {k : ArrRate ℚ} {kind : Text} (hr : r.rate = .simple kind k)
    (h : r.rtype = "three-body-Arrhenius".toList) :
    (adjRxn a r).rate = .simple kind (adjArr a k (orderQ r) (orderOf r)) := by
  unfold adjRxn
  simp only [hr]
  rw [if_pos h]

theorem adj_simple {r : Rxn ℚ} {k : ArrRate ℚ} {kind : Text} (hr : r.rate = .simple kind k)
    (h : r.rtype ≠ "three-body-Arrhenius".toList) :
    (adjRxn a r).rate = .simple kind (adjArr a k (orderQ r - 1) (orderOf r - 1)) := by
  unfold adjRxn
  simp only [hr]
  rw [if_neg h]

theorem adj_falloff {r : Rxn ℚ} {sub : Text} {lo hi : ArrRate ℚ} {cs : List ℚ}
    (hr : r.rate = .falloff sub false lo hi cs) :
    (adjRxn a r).rate = .falloff sub false (adjArr a lo (orderQ r) (orderOf r))
        (adjArr a hi (orderQ r - 1) (orderOf r - 1)) cs := by
  unfold adjRxn
  simp only [hr]

theorem adj_chem {r : Rxn ℚ} {sub : Text} {lo hi : ArrRate ℚ} {cs : List ℚ}
    (hr : r.rate = .falloff sub true lo hi cs) :
    (adjRxn a r).rate = .falloff sub true (adjArr a lo (orderQ r - 1) (orderOf r - 1))
        (adjArr a hi (orderQ r - 2) (orderOf r - 2)) cs := by
  unfold adjRxn
  simp only [hr]

theorem adj_plog {r : Rxn ℚ} {rates : List (ℚ × ArrRate ℚ)} (hr : r.rate = .plog rates) :
    (adjRxn a r).rate = .plog (rates.map fun pk => (pk.1, adjArr a pk.2 (orderQ r - 1) (orderOf r - 1))) := by
  unfold adjRxn
  simp only [hr]

theorem adj_cheb {r : Rxn ℚ} {t p : ℚ × ℚ} {nP : Nat} {data : List (List ℚ)} (hr : r.rate = .cheb t p nP data) :
    (adjRxn a r).rate = .cheb t p nP data := by
  unfold adjRxn
  simp only [hr]

theorem simple_type {r : Rxn ℚ} {k : ArrRate ℚ} (hr : r.rate = .simple "Arrhenius".toList k) :
    r.rtype = if r.third.isSome then "three-body-Arrhenius".toList else "Arrhenius".toList := by
  unfold Rxn.rtype
  simp only [hr]
  cases r.third <;> rfl

theorem main_adj {r : Rxn ℚ} (hw : Writable r) : mainRateR a r = mainRate (adjRxn a r) := by
  unfold Writable at hw
  unfold mainRateR mainRate
  rw [adj_rtype, adj_order]
  rcases hr : r.rate with ⟨kind, k⟩ | ⟨sub, chem, lo, hi, cs⟩ | ⟨rates⟩ | ⟨t, p, nP, data⟩
  · rw [hr] at hw
    simp only at hw
    subst hw
    have ht := simple_type hr
    cases h3 : r.third with
    | none =>
        rw [h3] at ht
        simp only [Option.isSome_none, Bool.false_eq_true, if_false] at ht
        rw [adj_simple a hr (by rw [ht]; decide)]
        dsimp only
        rw [ht, if_pos (Or.inl rfl), if_pos (Or.inl rfl), arr_adj a (n := orderOf r) (Or.inl rfl)]
    | some tb =>
        rw [h3] at ht
        simp only [Option.isSome_some, if_true] at ht
        rw [adj_simple3 a hr ht]
        dsimp only
        rw [ht, if_pos (Or.inr rfl), if_pos (Or.inr rfl), arr_adj3 a (n := orderOf r)]
  · cases chem with
    | false =>
        rw [adj_falloff a hr]
        have ht : r.rtype = "falloff-".toList ++ sub := by unfold Rxn.rtype; simp only [hr]
        dsimp only
        have h1 : ¬ ("falloff-".toList ++ sub = "Arrhenius".toList ∨
          "falloff-".toList ++ sub = "three-body-Arrhenius".toList) := by simp
        rw [ht, if_neg h1, if_neg h1, if_pos (falloff_prefix sub), if_pos (falloff_prefix sub),
          high_adj a (n := orderOf r)]
    | true =>
        rw [adj_chem a hr]
        have ht : r.rtype = "chemically-activated-".toList ++ sub := by unfold Rxn.rtype; simp only [hr]
        dsimp only
        have h1 : ¬ ("chemically-activated-".toList ++ sub = "Arrhenius".toList ∨
          "chemically-activated-".toList ++ sub = "three-body-Arrhenius".toList) := by simp
        have h2 : ¬ "falloff-".toList.isPrefixOf ("chemically-activated-".toList ++ sub) = true :=
          chem_not_falloff ('-' :: sub)
        have h3 : "chemically-activated".toList.isPrefixOf ("chemically-activated-".toList ++ sub) = true :=
          chem_prefix ('-' :: sub)
        rw [ht, if_neg h1, if_neg h1, if_neg h2, if_neg h2, if_pos h3, if_pos h3,
          clow_adj a (n := orderOf r)]
  · rw [hr] at hw
    obtain ⟨h1, h2⟩ := hw
    rw [adj_plog a hr]
    have ht : r.rtype = "pressure-dependent-Arrhenius".toList := by
      unfold Rxn.rtype; simp only [hr, h1]; rfl
    dsimp only
    cases rates with
    | nil => exact absurd rfl h2
    | cons pk rest =>
        rw [ht, List.map_cons]
        dsimp only
        rw [arr_adj a (n := orderOf r) (Or.inr rfl)]
  · rw [adj_cheb a hr]

theorem aux_adj (r : Rxn ℚ) : auxLinesR a r = auxLines pyRepr (adjRxn a r) := by
  unfold auxLinesR auxLines
  rw [adj_rtype, adj_order]
  rcases hr : r.rate with ⟨kind, k⟩ | ⟨sub, chem, lo, hi, cs⟩ | ⟨rates⟩ | ⟨t, p, nP, data⟩
  · by_cases h : r.rtype = "three-body-Arrhenius".toList
    · rw [adj_simple3 a hr h]
    · rw [adj_simple a hr h]
  · cases chem with
    | false =>
        rw [adj_falloff a hr]
        have ht : r.rtype = "falloff-".toList ++ sub := by unfold Rxn.rtype; simp only [hr]
        dsimp only
        rw [ht, low_adj a (n := orderOf r)]
        rfl
    | true =>
        rw [adj_chem a hr]
        have ht : r.rtype = "chemically-activated-".toList ++ sub := by unfold Rxn.rtype; simp only [hr]
        dsimp only
        rw [ht, chigh_adj a (n := orderOf r)]
        rfl
  · rw [adj_plog a hr]
    exact plogs_adj a _ _ _
  · rw [adj_cheb a hr]

theorem adj_writable {r : Rxn ℚ} (hw : Writable r) : Writable (adjRxn a r) := by
  unfold Writable at hw ⊢
  rcases hr : r.rate with ⟨kind, k⟩ | ⟨sub, chem, lo, hi, cs⟩ | ⟨rates⟩ | ⟨t, p, nP, data⟩
  · rw [hr] at hw
    by_cases h : r.rtype = "three-body-Arrhenius".toList
    · rw [adj_simple3 a hr h]; exact hw
    · rw [adj_simple a hr h]; exact hw
  · rw [hr] at hw
    cases chem
    · rw [adj_falloff a hr]; exact hw
    · rw [adj_chem a hr]; exact hw
  · rw [hr] at hw
    rw [adj_plog a hr]
    exact ⟨hw.1, by simpa using hw.2⟩
  · rw [hr] at hw
    rw [adj_cheb a hr]
    exact hw

theorem rxn_adj {r : Rxn ℚ} (hw : Writable r) (names : List Text) :
    rxnTextR a names r = rxnText pyRepr names (adjRxn a r) := by
  unfold rxnTextR rxnText
  rw [main_adj a hw, aux_adj]
  rfl

/-! ## Accuracy -/

variable {a}

theorem rate_reads (ha : CkAccurate a) {k : ArrRate ℚ} {x : ℚ} {n : Int} (hx : |x| ≤ 20) {ws : List Text}
    {tol tol' : ℚ} (h : RateWords ws ((adjArr a k x n).A * 1000 ^ n) (adjArr a k x n).b
      ((adjArr a k x n).E / 4184) tol) (ht : tol + |a.energy k - k.E / 4184| ≤ tol') :
    RateReads ws k x tol' := by
  obtain ⟨wa, wb, we, h1, ⟨v, h2, h3⟩, h4, ⟨e, h5, h6⟩⟩ := h
  refine ⟨wa, wb, we, v, h1, h2, ?_, h4, e, h5, ?_⟩
  · rw [adj_factor] at h3
    have hp := ha.pw x hx
    have hr := ha.rnd (k.A * a.pw x)
    rw [CkArith.factor] at h3
    have hT : (0 : ℝ) ≤ (1000 : ℝ) ^ (x : ℝ) := by positivity
    generalize (1000 : ℝ) ^ (x : ℝ) = T at *
    generalize a.pw x = P at *
    generalize a.rnd (k.A * P) = R at *
    have h3' : |(v : ℝ) - R| ≤ |(R : ℝ)| / 20000 := by exact_mod_cast h3
    have hr' : |(R : ℝ) - k.A * P| ≤ |(k.A * P : ℝ)| / 2 ^ 53 + 1 / 2 ^ 250 := by
      have := (Rat.cast_le (K := ℝ)).2 hr
      push_cast at this
      exact this
    have h7 : |(k.A * P - k.A * T : ℝ)| ≤ |(k.A : ℝ)| * T / 2 ^ 50 := by
      rw [← mul_sub, abs_mul]
      calc |(k.A : ℝ)| * |(P : ℝ) - T| ≤ |(k.A : ℝ)| * (T / 2 ^ 50) := by gcongr
        _ = _ := by ring
    have h8 : |(k.A * T : ℝ)| = |(k.A : ℝ)| * T := by rw [abs_mul, abs_of_nonneg hT]
    have hM : 0 ≤ |(k.A : ℝ)| * T := by positivity
    generalize |(k.A : ℝ)| * T = M at *
    generalize (k.A * T : ℝ) = q at *
    generalize (k.A * P : ℝ) = w at *
    have a1 : |w| ≤ |w - q| + |q| := by
      have := abs_add_le (w - q) q
      rwa [sub_add_cancel] at this
    have a2 : |(R : ℝ)| ≤ |(R : ℝ) - w| + |w| := by
      have := abs_add_le ((R : ℝ) - w) w
      rwa [sub_add_cancel] at this
    have a3 : |(v : ℝ) - q| ≤ |(v : ℝ) - R| + |(R : ℝ) - w| + |w - q| := by
      have e1 := abs_add_le ((v : ℝ) - R) ((R : ℝ) - w)
      have e2 := abs_add_le ((v : ℝ) - w) (w - q)
      rw [show (v : ℝ) - R + (R - w) = v - w by ring] at e1
      rw [show (v : ℝ) - w + (w - q) = v - q by ring] at e2
      linarith
    rw [h8] at a1
    linarith
  · have h7 : (adjArr a k x n).E / 4184 = a.energy k := adj_energy a k x n
    rw [h7] at h6
    calc |e - k.E / 4184| = |(e - a.energy k) + (a.energy k - k.E / 4184)| := by congr 1; ring
      _ ≤ |e - a.energy k| + |a.energy k - k.E / 4184| := abs_add_le _ _
      _ ≤ tol + |a.energy k - k.E / 4184| := by linarith
      _ ≤ tol' := ht

theorem tol_fix (ha : CkAccurate a) (k : ArrRate ℚ) : 1 / 200 + |a.energy k - k.E / 4184| ≤ tolFix k := by
  have h := ha.rnd (k.E / 4184)
  have : a.energy k = a.rnd (k.E / 4184) := rfl
  rw [this]
  unfold tolFix
  have h2 : (1 : ℚ) / 2 ^ 250 ≤ 1 / 2 ^ 240 := by norm_num
  linarith

theorem tol_exp (ha : CkAccurate a) (k : ArrRate ℚ) (x : ℚ) (n : Int) :
    |(adjArr a k x n).E / 4184| / 2000 + |a.energy k - k.E / 4184| ≤ tolExp k := by
  have h7 : (adjArr a k x n).E / 4184 = a.rnd (k.E / 4184) := adj_energy a k x n
  have h := ha.rnd (k.E / 4184)
  have h0 : a.energy k = a.rnd (k.E / 4184) := rfl
  rw [h7, h0]
  unfold tolExp
  generalize k.E / 4184 = q at *
  have h3 := abs_add_le (a.rnd q - q) q
  rw [sub_add_cancel] at h3
  have h4 := abs_nonneg q
  linarith

theorem main_reads (ha : CkAccurate a) {r : Rxn ℚ} (hw : Writable r) (hx : 0 ≤ orderQ r ∧ orderQ r ≤ 18)
    {ws : List Text} (h : MainWords (adjRxn a r) (orderOf r) ws) : MainReads r (orderQ r) ws := by
  have b0 : |orderQ r| ≤ 20 := by rw [abs_le]; constructor <;> linarith
  have b1 : |orderQ r - 1| ≤ 20 := by rw [abs_le]; constructor <;> linarith
  unfold Writable at hw
  unfold MainWords at h
  unfold MainReads
  rcases hr : r.rate with ⟨kind, k⟩ | ⟨sub, chem, lo, hi, cs⟩ | ⟨rates⟩ | ⟨t, p, nP, data⟩
  · rw [hr] at hw
    simp only at hw
    subst hw
    have ht := simple_type hr
    have h3 : (adjRxn a r).third = r.third := rfl
    rw [h3] at h
    cases h3 : r.third with
    | none =>
        rw [h3] at ht h
        simp only [Option.isSome_none, Bool.false_eq_true, if_false] at ht
        rw [adj_simple a hr (by rw [ht]; decide)] at h
        exact rate_reads ha b1 h (tol_fix ha k)
    | some tb =>
        rw [h3] at ht h
        simp only [Option.isSome_some, if_true] at ht
        rw [adj_simple3 a hr ht] at h
        exact rate_reads ha b0 h (tol_fix ha k)
  · cases chem with
    | false =>
        rw [adj_falloff a hr] at h
        exact rate_reads ha b1 h (tol_exp ha hi _ _)
    | true =>
        rw [adj_chem a hr] at h
        exact rate_reads ha b1 h (tol_exp ha lo _ _)
  · rw [adj_plog a hr] at h
    cases rates with
    | nil =>
        rw [hr] at hw
        exact absurd rfl hw.2
    | cons pk rest =>
        obtain ⟨p, k, rest', h1, h2⟩ := h
        rw [List.map_cons, List.cons.injEq, Prod.mk.injEq] at h1
        obtain ⟨⟨-, h1⟩, -⟩ := h1
        subst h1
        exact ⟨pk.1, pk.2, rest, rfl, rate_reads ha b1 h2 (tol_fix ha _)⟩
  · rw [adj_cheb a hr] at h
    exact h

theorem aux_reads (ha : CkAccurate a) {r : Rxn ℚ} (hx : 0 ≤ orderQ r ∧ orderQ r ≤ 18)
    {ls : List Text} (h : AuxLines pyRepr (adjRxn a r) (orderOf r) ls) : AuxReads r (orderQ r) ls := by
  have b0 : |orderQ r| ≤ 20 := by rw [abs_le]; constructor <;> linarith
  have b1 : |orderQ r - 1| ≤ 20 := by rw [abs_le]; constructor <;> linarith
  have b2 : |orderQ r - 2| ≤ 20 := by rw [abs_le]; constructor <;> linarith
  unfold AuxLines at h
  unfold AuxReads
  rcases hr : r.rate with ⟨kind, k⟩ | ⟨sub, chem, lo, hi, cs⟩ | ⟨rates⟩ | ⟨t, p, nP, data⟩
  · have : ls = [] := by
      by_cases h3 : r.rtype = "three-body-Arrhenius".toList
      · rw [adj_simple3 a hr h3] at h; exact h
      · rw [adj_simple a hr h3] at h; exact h
    unfold AuxLines
    simp only [hr]
    exact this
  · cases chem with
    | false =>
        rw [adj_falloff a hr] at h
        obtain ⟨l, ps, h1, ⟨ws, h2, h3⟩, h4⟩ := h
        exact ⟨l, ps, h1, ⟨ws, h2, rate_reads ha b0 h3 (tol_exp ha lo _ _)⟩, h4⟩
    | true =>
        rw [adj_chem a hr] at h
        obtain ⟨l, ps, h1, ⟨ws, h2, h3⟩, h4⟩ := h
        exact ⟨l, ps, h1, ⟨ws, h2, rate_reads ha b2 h3 (tol_exp ha hi _ _)⟩, h4⟩
  · rw [adj_plog a hr] at h
    simp only at h ⊢
    rw [List.forall₂_map_right_iff] at h
    refine h.imp ?_
    rintro l pk ⟨ws, h1, h2⟩
    exact ⟨ws, h1, rate_reads ha b1 h2 (tol_fix ha _)⟩
  · rw [adj_cheb a hr] at h
    unfold AuxLines
    simp only [hr]
    exact h

/-! ## Transport data -/

/-- a rounded constant -/
theorem const_near (ha : CkAccurate a) {b : ℚ} (hb : 1 / 2 ^ 150 ≤ b) : |a.rnd b - b| ≤ b / 2 ^ 52 := by
  have h := ha.rnd b
  have h0 : (0 : ℚ) < b := lt_of_lt_of_le (by positivity) hb
  rw [abs_of_pos h0] at h
  have h1 : (1 : ℚ) / 2 ^ 250 ≤ b / 2 ^ 53 := by
    calc (1 : ℚ) / 2 ^ 250 ≤ (1 / 2 ^ 150) / 2 ^ 53 := by norm_num
      _ ≤ b / 2 ^ 53 := by gcongr
  linarith

theorem conv_div (ha : CkAccurate a) {q b : ℚ} (hb : 1 / 2 ^ 150 ≤ b) (hq : 0 ≤ q) :
    0 ≤ a.rnd (q / a.rnd b) ∧ |a.rnd (q / a.rnd b) - q / b| ≤ (q / b) / 2 ^ 50 + 1 / 2 ^ 240 := by
  have h := abs_le.1 (const_near ha hb)
  have h0 : (0 : ℚ) < b := lt_of_lt_of_le (by positivity) hb
  generalize a.rnd b = c at *
  have hc : b / 2 ≤ c := by linarith
  have hc0 : 0 < c := by linarith
  have hqc : 0 ≤ q / c := by positivity
  refine ⟨ha.sign _ hqc, ?_⟩
  have hr := ha.rnd (q / c)
  rw [abs_of_nonneg hqc] at hr
  have hd : |q / c - q / b| ≤ (q / b) / 2 ^ 51 := by
    have e : q / c - q / b = (q / b) * ((b - c) / c) := by
      field_simp
    have hqb : 0 ≤ q / b := by positivity
    rw [e, abs_mul, abs_of_nonneg hqb]
    have e2 : |(b - c) / c| ≤ 1 / 2 ^ 51 := by
      rw [abs_div, abs_of_pos hc0, div_le_iff₀ hc0, abs_le]
      constructor <;> linarith
    calc (q / b) * |(b - c) / c| ≤ (q / b) * (1 / 2 ^ 51) := by gcongr
      _ = _ := by ring
  have hqb : 0 ≤ q / b := by positivity
  generalize q / c = u at *
  generalize q / b = w at *
  have h3 := abs_le.1 hd
  have h4 := abs_le.1 hr
  rw [abs_le]
  constructor <;> linarith

theorem conv_mul (ha : CkAccurate a) {q b : ℚ} (hb : 1 / 2 ^ 150 ≤ b) (hq : 0 ≤ q) :
    0 ≤ a.rnd (q * a.rnd b) ∧ |a.rnd (q * a.rnd b) - q * b| ≤ (q * b) / 2 ^ 50 + 1 / 2 ^ 240 := by
  have h := const_near ha hb
  have h0 : (0 : ℚ) < b := lt_of_lt_of_le (by positivity) hb
  have hc0 := ha.sign b h0.le
  generalize a.rnd b = c at *
  have hqc : 0 ≤ q * c := by positivity
  refine ⟨ha.sign _ hqc, ?_⟩
  have hr := ha.rnd (q * c)
  rw [abs_of_nonneg hqc] at hr
  have hd : |q * c - q * b| ≤ (q * b) / 2 ^ 52 := by
    rw [← mul_sub, abs_mul, abs_of_nonneg hq]
    calc q * |c - b| ≤ q * (b / 2 ^ 52) := by gcongr
      _ = _ := by ring
  have hqb : 0 ≤ q * b := by positivity
  generalize q * c = u at *
  generalize q * b = w at *
  have h3 := abs_le.1 hd
  have h4 := abs_le.1 hr
  rw [abs_le]
  constructor <;> linarith

theorem conv_exact (ha : CkAccurate a) {q : ℚ} (hq : 0 ≤ q) :
    0 ≤ a.rnd q ∧ |a.rnd q - q| ≤ q / 2 ^ 50 + 1 / 2 ^ 240 := by
  refine ⟨ha.sign _ hq, ?_⟩
  have hr := ha.rnd q
  rw [abs_of_nonneg hq] at hr
  linarith

/-- the transport data for which exact conversion gives the rounded numbers -/
def adjTransport (a : CkArith) (t : Transport ℚ) : Transport ℚ :=
  { t with
    wellDepth := a.rnd (t.wellDepth / a.rnd boltzmann) * boltzmann
    diameter := a.rnd (t.diameter * 10 ^ 10) / 10 ^ 10
    dipole := a.rnd (t.dipole / a.rnd debyeConversion) * debyeConversion
    polar := a.rnd (t.polar * a.rnd (10 ^ 30)) / 10 ^ 30 }

theorem boltzmann_pos : (1 : ℚ) / 2 ^ 150 ≤ boltzmann := by unfold boltzmann; norm_num

theorem debye_pos : (1 : ℚ) / 2 ^ 150 ≤ debyeConversion := by unfold debyeConversion; norm_num

theorem adj_transport (a : CkArith) (t : Transport ℚ) :
    (adjTransport a t).wellDepth / boltzmann = a.rnd (t.wellDepth / a.rnd boltzmann) ∧
    (adjTransport a t).diameter * 10 ^ 10 = a.rnd (t.diameter * 10 ^ 10) ∧
    (adjTransport a t).dipole / debyeConversion = a.rnd (t.dipole / a.rnd debyeConversion) ∧
    (adjTransport a t).polar * 10 ^ 30 = a.rnd (t.polar * a.rnd (10 ^ 30)) := by
  have h1 : boltzmann ≠ 0 := (lt_of_lt_of_le (by positivity) boltzmann_pos).ne'
  have h2 : debyeConversion ≠ 0 := (lt_of_lt_of_le (by positivity) debye_pos).ne'
  unfold adjTransport
  dsimp only
  refine ⟨mul_div_cancel_right₀ _ h1, div_mul_cancel₀ _ (by norm_num), mul_div_cancel_right₀ _ h2,
    div_mul_cancel₀ _ (by norm_num)⟩

theorem transport_adj (a : CkArith) {s : Spec1 ℚ} {t : Transport ℚ} (hs : s.transport = some t) :
    transportLineR a s = transportLine { s with transport := some (adjTransport a t) } := by
  obtain ⟨h1, h2, h3, h4⟩ := adj_transport a t
  unfold transportLineR transportLine
  rw [hs]
  dsimp only
  rw [h1, h2, h3, h4]
  rfl

end Verif
