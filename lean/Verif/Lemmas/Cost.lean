import Verif.Lemmas.Dijkstra
import Mathlib.Algebra.Order.Field.Rat
import Mathlib.Algebra.BigOperators.Intervals
import Mathlib.Algebra.Order.BigOperators.Ring.Finset
import Mathlib.Tactic.Linarith
import Mathlib.Tactic.Positivity
/-!
# Number of iterations of the path search
-/
namespace Verif
open Spec
variable {α : Type} [DecidableEq α]

/-- `T` iterations lead from `s` to `t` without leaving the loop -/
inductive Steps (g : WGraph α ℚ) (mul : ℚ → ℚ → ℚ) (src : α) : Nat → DijState α ℚ → DijState α ℚ → Prop
  | refl (s : DijState α ℚ) : Steps g mul src 0 s s
  | step {T : Nat} {s s1 t : DijState α ℚ} : dijStep g 1 mul src none none s = .cont s1 →
      Steps g mul src T s1 t → Steps g mul src (T + 1) s t

variable {g : WGraph α ℚ} {mul : ℚ → ℚ → ℚ} {src : α}

theorem Steps.trans {T T' : Nat} {s t r : DijState α ℚ} (h : Steps g mul src T s t)
    (h' : Steps g mul src T' t r) : Steps g mul src (T + T') s r := by
  induction h with
  | refl => rwa [Nat.zero_add]
  | step h0 _ ih => rw [Nat.add_right_comm]; exact .step h0 (ih h')

theorem Steps.none {T : Nat} {s t : DijState α ℚ} (h : Steps g mul src T s t) {fuel : Nat} (hf : fuel ≤ T) :
    dijLoop g 1 mul src none none fuel s = none := by
  induction h generalizing fuel with
  | refl => obtain rfl : fuel = 0 := by omega
            rfl
  | step h0 _ ih =>
    cases fuel with
    | zero => rfl
    | succ k => rw [dijLoop, h0]; exact ih (by omega)

/-- the smallest entry is popped, wherever it is in the list -/
theorem popMin_min {l rest : List (Entry α ℚ)} {d : ℚ} {c : Nat} {v : α} (hl : l.Perm ((d, c, v) :: rest))
    (hr : ∀ e ∈ rest, d < e.1) : ∃ r, popMin l = some ((d, c, v), r) ∧ r.Perm rest := by
  induction l generalizing rest with
  | nil => exact absurd hl.length_eq (by simp)
  | cons e es ih =>
    have hmem : (d, c, v) ∈ e :: es := hl.mem_iff.2 (List.mem_cons_self ..)
    by_cases he : e = (d, c, v)
    · subst he
      have hp : es.Perm rest := (List.perm_cons _).1 hl
      rcases hpop : popMin es with _ | ⟨x, r⟩
      · refine ⟨[], by simp [popMin, hpop], ?_⟩
        rw [popMin_none.1 hpop] at hp
        exact hp
      · have hx : x ∈ es := (popMin_perm hpop).mem_iff.2 (List.mem_cons_self ..)
        have hlt := hr x (hp.mem_iff.1 hx)
        have hn : entryLt x (d, c, v) = false := by
          simp [entryLt, not_lt.2 hlt.le, ne_of_gt hlt]
        exact ⟨x :: r, by simp [popMin, hpop, hn], (popMin_perm hpop).symm.trans hp⟩
    · have hmem' : (d, c, v) ∈ es := by
        rcases List.mem_cons.1 hmem with h | h
        · exact absurd h.symm he
        · exact h
      have her : e ∈ rest := by
        have : e ∈ (d, c, v) :: rest := hl.mem_iff.1 (List.mem_cons_self ..)
        rcases List.mem_cons.1 this with h | h
        · exact absurd h he
        · exact h
      have hes : es.Perm ((d, c, v) :: rest.erase e) := by
        have h1 : (e :: es).Perm (e :: (d, c, v) :: rest.erase e) :=
          hl.trans (((List.perm_cons_erase her).cons _).trans (List.Perm.swap _ _ _))
        exact (List.perm_cons _).1 h1
      obtain ⟨r, h1, h2⟩ := ih hes (fun x hx => hr x (List.mem_of_mem_erase hx))
      have hlt := hr e her
      have hy : entryLt (d, c, v) e = true := by simp [entryLt, hlt]
      exact ⟨e :: r, by simp [popMin, h1, hy], (h2.cons e).trans (List.perm_cons_erase her).symm⟩

/-- an edge that gives no more than what was seen changes nothing -/
theorem relaxEdge_noop {dv y w : ℚ} {s : DijState α ℚ} {x : α} (h : s.seen x = some y) (hle : mul dv w ≤ y) :
    relaxEdge mul none dv s (x, some w) = s := by
  simp [relaxEdge, h, not_lt.2 hle]

/-- an edge that gives more is followed -/
theorem relaxEdge_push {dv w : ℚ} {s : DijState α ℚ} {x : α} (h : ∀ y, s.seen x = some y → y < mul dv w) :
    relaxEdge mul none dv s (x, some w) =
      { s with seen := setKey s.seen x (mul dv w), fringe := (mul dv w, s.cnt, x) :: s.fringe, cnt := s.cnt + 1 } := by
  rcases hx : s.seen x with _ | y
  · simp [relaxEdge, hx]
  · simp [relaxEdge, hx, h y hx]

/-- one iteration that treats node `v` -/
theorem dijStep_pop {s : DijState α ℚ} {rest : List (Entry α ℚ)} {d : ℚ} {c : Nat} {v : α}
    (hl : s.fringe.Perm ((d, c, v) :: rest)) (hr : ∀ e ∈ rest, d < e.1)
    (hd : ∀ y, s.dist v = some y → y ≤ d) (hv : v ≠ src) :
    ∃ r, r.Perm rest ∧ dijStep g 1 mul src none none s = .cont ((g.adj v).foldl (relaxEdge mul none d)
      { s with dist := setKey s.dist v d, fringe := r }) := by
  obtain ⟨r, h1, h2⟩ := popMin_min hl hr
  refine ⟨r, h2, ?_⟩
  have : alreadySearched s.dist v d = false := by
    unfold alreadySearched
    rcases hx : s.dist v with _ | y
    · rfl
    · simpa using hd y hx
  simp [dijStep, h1, this, hv]

/-- A graph that contains a ladder: from `v k` an edge leads to `v (k+1)`, and a better path leads
there by way of `u k`; all edges have a counterpart in the other direction.  `al`, `ah`, `bl`, `bh` bound
the effect of multiplying by the weights, for the values `F k` that the `k`-th level can have. -/
structure Ladder (g : WGraph α ℚ) (mul : ℚ → ℚ → ℚ) (src : α) (n : Nat) (v u : Nat → α)
    (a b al ah bl bh : Nat → ℚ) (F : Nat → ℚ → Prop) : Prop where
  adj_v : ∀ k, k + 1 < n → g.adj (v (k + 1)) =
    [(v k, some (a k)), (u k, some (b k)), (u (k + 1), some (b (k + 1))), (v (k + 2), some (a (k + 1)))]
  adj_last : ∀ k, k + 1 = n → g.adj (v (k + 1)) = [(v k, some (a k)), (u k, some (b k))]
  adj_u : ∀ k, k < n → g.adj (u k) = [(v k, some 1), (v (k + 1), some 1)]
  inj_v : ∀ i j, i ≤ n → j ≤ n → v i = v j → i = j
  inj_u : ∀ i j, i < n → j < n → u i = u j → i = j
  ne_uv : ∀ i j, i < n → j ≤ n → u i ≠ v j
  src_v : ∀ i, i ≤ n → v i ≠ src
  src_u : ∀ i, i < n → u i ≠ src
  pos : ∀ k x, F k x → 0 < x
  unit : ∀ k x, F k x → mul x 1 = x
  Fa : ∀ k x, k < n → F k x → F (k + 1) (mul x (a k))
  Fb : ∀ k x, k < n → F k x → F (k + 1) (mul x (b k))
  mul_a : ∀ k x, k < n → F k x → x * al k ≤ mul x (a k) ∧ mul x (a k) ≤ x * ah k
  mul_b : ∀ k x, k < n → F k x → x * bl k ≤ mul x (b k) ∧ mul x (b k) ≤ x * bh k
  back : ∀ k x, k < n → F (k + 1) x → mul x (a k) ≤ x ∧ mul x (b k) ≤ x
  al_pos : ∀ k, k < n → 0 < al k
  al_bl : ∀ k, k < n → al k ≤ bl k
  bl_bh : ∀ k, k < n → bl k ≤ bh k
  ah_bh : ∀ k, k < n → ah k ≤ bh k
  bh_one : ∀ k, k < n → bh k ≤ 1
  cross : ∀ k j, k + 1 ≤ j → j ≤ n →
    ah k * (∏ i ∈ Finset.Ico (k + 1) j, bh i) < bl k * ∏ i ∈ Finset.Ico (k + 1) j, al i

namespace Ladder
variable {n : Nat} {v u : Nat → α} {a b al ah bl bh : Nat → ℚ} {F : Nat → ℚ → Prop}

def low (al : Nat → ℚ) (i j : Nat) : ℚ := ∏ k ∈ Finset.Ico i j, al k

theorem low_self (al : Nat → ℚ) (i : Nat) : low al i i = 1 := by simp [low]

theorem low_first (al : Nat → ℚ) {i j : Nat} (h : i < j) : low al i j = al i * low al (i + 1) j :=
  Finset.prod_eq_prod_Ico_succ_bot h _

theorem low_last (al : Nat → ℚ) {i j : Nat} (h : i ≤ j) : low al i (j + 1) = low al i j * al j :=
  Finset.prod_Ico_succ_top h _

/-- what has been found beyond level `k` is at most a given share of `D` -/
structure Above (n : Nat) (v u : Nat → α) (f : α → Option ℚ) (k : Nat) (B B' : Nat → ℚ) : Prop where
  v : ∀ j, k < j → j ≤ n → ∀ y, f (v j) = some y → y ≤ B j
  u : ∀ j, k ≤ j → j < n → ∀ y, f (u j) = some y → y ≤ B' j

/-- the same, strictly -/
structure Below (n : Nat) (v u : Nat → α) (f : α → Option ℚ) (k : Nat) (B B' : Nat → ℚ) : Prop where
  v : ∀ j, k < j → j ≤ n → ∀ y, f (v j) = some y → y < B j
  u : ∀ j, k ≤ j → j < n → ∀ y, f (u j) = some y → y < B' j

variable (L : Ladder g mul src n v u a b al ah bl bh F)
include L

theorem low_pos {i j : Nat} (hj : j ≤ n) : 0 < low al i j :=
  Finset.prod_pos (fun k hk => L.al_pos k (by rw [Finset.mem_Ico] at hk; omega))

theorem mul_le (k : Nat) (hk : k < n) {x : ℚ} (hx : F k x) : mul x (a k) ≤ x ∧ mul x (b k) ≤ x := by
  have h := L.pos k x hx
  have h1 := L.mul_a k x hk hx
  have h2 := L.mul_b k x hk hx
  have h3 := L.bh_one k hk
  have h4 := L.ah_bh k hk
  constructor <;> nlinarith

theorem lt_ab (k : Nat) (hk : k < n) {x : ℚ} (hx : F k x) : mul x (a k) < mul x (b k) := by
  have := L.cross k (k + 1) le_rfl hk
  simp at this
  have h := L.pos k x hx
  exact lt_of_le_of_lt (L.mul_a k x hk hx).2 (lt_of_lt_of_le (mul_lt_mul_of_pos_left this h) (L.mul_b k x hk hx).1)

/-- Treating `v k` for the first time with a value that improves everything beyond takes `2^(n-k)`
iterations. -/
theorem explore (d : Nat) : ∀ (k : Nat), k + 1 + d = n → ∀ (s : DijState α ℚ) (D : ℚ) (c : Nat) (rest : List (Entry α ℚ)),
    s.fringe.Perm ((D, c, v (k + 1)) :: rest) → (∀ e ∈ rest, D < e.1) → F (k + 1) D →
    (∀ y, s.dist (v (k + 1)) = some y → y ≤ D) →
    (∃ y, s.seen (v (k + 1)) = some y ∧ D ≤ y) → (∃ y, s.seen (v k) = some y ∧ D ≤ y) →
    (∃ y, s.seen (u k) = some y ∧ D ≤ y) →
    Below n v u s.seen (k + 1) (fun j => D * low al (k + 1) j) (fun j => D * low al (k + 1) j * bl j) →
    Below n v u s.dist (k + 1) (fun j => D * low al (k + 1) j) (fun j => D * low al (k + 1) j * bl j) →
    ∃ T t, 2 ^ d ≤ T ∧ Steps g mul src T s t ∧ t.fringe.Perm rest ∧
      Above n v u t.seen (k + 1) (fun j => D * low bh (k + 1) j) (fun j => D * low bh (k + 1) (j + 1)) ∧
      Above n v u t.dist (k + 1) (fun j => D * low bh (k + 1) j) (fun j => D * low bh (k + 1) (j + 1)) ∧
      t.dist (v (k + 1)) = some D ∧
      (∀ x, (∀ j, k + 1 < j → j ≤ n → x ≠ v j) → (∀ j, k + 1 ≤ j → j < n → x ≠ u j) →
        t.seen x = s.seen x ∧ (x ≠ v (k + 1) → t.dist x = s.dist x)) := by
  induction d with
  | zero =>
    intro k hk s D c rest hf hr hD hd hhere ⟨y1, hy1, hle1⟩ ⟨y2, hy2, hle2⟩ _ _
    obtain ⟨r, hrp, hstep⟩ := dijStep_pop (g := g) (mul := mul) hf hr hd (L.src_v (k + 1) (by omega))
    rw [L.adj_last k (by omega)] at hstep
    have hm := L.back k D (by omega) hD
    rw [List.foldl_cons, List.foldl_cons, List.foldl_nil,
      relaxEdge_noop (y := y1) (by exact hy1) (hm.1.trans hle1),
      relaxEdge_noop (y := y2) (by exact hy2) (hm.2.trans hle2)] at hstep
    refine ⟨1, _, by simp, .step hstep (.refl _), hrp, ?_, ?_, by simp [setKey], ?_⟩
    · exact ⟨fun j h1 h2 => absurd h1 (by omega), fun j h1 h2 => absurd h1 (by omega)⟩
    · exact ⟨fun j h1 h2 => absurd h1 (by omega), fun j h1 h2 => absurd h1 (by omega)⟩
    · intro x _ _
      exact ⟨rfl, fun hx => by simp [setKey, hx]⟩
  | succ d ih =>
    intro k hk s D c rest hf hr hD hd ⟨y0, hy0, hle0⟩ ⟨y1, hy1, hle1⟩ ⟨y2, hy2, hle2⟩ hbs hbd
    have hkn : k + 1 < n := by omega
    have hDp := L.pos _ D hD
    have hm := L.back k D (by omega) hD
    have hm1 := L.mul_le (k + 1) hkn hD
    have ha := L.mul_a (k + 1) D hkn hD
    have hb := L.mul_b (k + 1) D hkn hD
    have hab := L.lt_ab (k + 1) hkn hD
    have hFa := L.Fa (k + 1) D hkn hD
    have hFb := L.Fb (k + 1) D hkn hD
    obtain ⟨r, hrp, hstep⟩ := dijStep_pop (g := g) (mul := mul) hf hr hd (L.src_v (k + 1) (by omega))
    -- distinctness of the nodes
    have n1 : v (k + 2) ≠ u (k + 1) := (L.ne_uv _ _ (by omega) (by omega)).symm
    have n2 : v (k + 1) ≠ u (k + 1) := (L.ne_uv _ _ (by omega) (by omega)).symm
    have n3 : v (k + 1) ≠ v (k + 2) := fun h => absurd (L.inj_v _ _ (by omega) (by omega) h) (by omega)
    have n4 : u (k + 1) ≠ v (k + 2) := n1.symm
    rw [L.adj_v k hkn, List.foldl_cons, List.foldl_cons, List.foldl_cons, List.foldl_cons, List.foldl_nil,
      relaxEdge_noop (y := y1) (by exact hy1) (hm.1.trans hle1),
      relaxEdge_noop (y := y2) (by exact hy2) (hm.2.trans hle2),
      relaxEdge_push (x := u (k + 1)) (fun y hy => by
        have := hbs.u (k + 1) le_rfl hkn y hy
        rw [low_self, mul_one] at this
        exact lt_of_lt_of_le this hb.1),
      relaxEdge_push (x := v (k + 2)) (fun y hy => by
        have hy' : s.seen (v (k + 2)) = some y := by simpa [setKey, n1] using hy
        have := hbs.v (k + 2) (by omega) (by omega) y hy'
        rw [low_first al (by omega), low_self, mul_one] at this
        exact lt_of_lt_of_le this ha.1)] at hstep
    generalize hDa : mul D (a (k + 1)) = Da at *
    generalize hDb : mul D (b (k + 1)) = Db at *
    obtain ⟨s1, c1, c2, hstep, p1, p2, p3⟩ : ∃ s1 c1 c2, dijStep g 1 mul src none none s = .cont s1 ∧
        s1.fringe = (Da, c1, v (k + 2)) :: (Db, c2, u (k + 1)) :: r ∧
        s1.seen = setKey (setKey s.seen (u (k + 1)) Db) (v (k + 2)) Da ∧
        s1.dist = setKey s.dist (v (k + 1)) D := ⟨_, _, _, hstep, rfl, rfl, rfl⟩
    -- the first exploration, by the direct edge
    obtain ⟨T1, t1, e1, e2, e3, e4, e5, e6, e7⟩ := ih (k + 1) (by omega) s1 Da c1 ((Db, c2, u (k + 1)) :: r) (by rw [p1])
      (fun e he => by
        rcases List.mem_cons.1 he with rfl | he
        · exact hab
        · exact (hab.trans_le hm1.2).trans (hr e (hrp.mem_iff.1 he)))
      hFa
      (fun y hy => by
        have hy' : s.dist (v (k + 2)) = some y := by simpa [p2, p3, setKey, n3.symm] using hy
        have := hbd.v (k + 2) (by omega) (by omega) y hy'
        rw [low_first al (by omega), low_self, mul_one] at this
        exact (lt_of_lt_of_le this ha.1).le)
      ⟨Da, by simp [p2, p3, setKey], le_rfl⟩
      ⟨y0, by simpa [p2, p3, setKey, n2, n3] using hy0, hm1.1.trans hle0⟩
      ⟨Db, by simp [p2, p3, setKey, n4], hab.le⟩
      ⟨fun j h1 h2 y hy => by
          have g1 : v j ≠ v (k + 2) := fun h => absurd (L.inj_v _ _ (by omega) (by omega) h) (by omega)
          have g2 : v j ≠ u (k + 1) := (L.ne_uv _ _ (by omega) (by omega)).symm
          have hy' : s.seen (v j) = some y := by simpa [p2, p3, setKey, g1, g2] using hy
          have := hbs.v j (by omega) h2 y hy'
          rw [low_first al (by omega), ← mul_assoc] at this
          exact lt_of_lt_of_le this (mul_le_mul_of_nonneg_right ha.1 (L.low_pos h2).le),
        fun j h1 h2 y hy => by
          have g1 : u j ≠ v (k + 2) := L.ne_uv _ _ (by omega) (by omega)
          have g2 : u j ≠ u (k + 1) := fun h => absurd (L.inj_u _ _ (by omega) (by omega) h) (by omega)
          have hy' : s.seen (u j) = some y := by simpa [p2, p3, setKey, g1, g2] using hy
          have := hbs.u j (by omega) h2 y hy'
          rw [low_first al (by omega), ← mul_assoc D, mul_assoc, mul_assoc] at this
          rw [mul_assoc]
          have hbl := (L.al_pos j h2).trans_le (L.al_bl j h2)
          rw [← mul_assoc D] at this
          exact lt_of_lt_of_le this (mul_le_mul_of_nonneg_right ha.1 (mul_pos (L.low_pos h2.le) hbl).le)⟩
      ⟨fun j h1 h2 y hy => by
          have g1 : v j ≠ v (k + 1) := fun h => absurd (L.inj_v _ _ (by omega) (by omega) h) (by omega)
          have hy' : s.dist (v j) = some y := by simpa [p2, p3, setKey, g1] using hy
          have := hbd.v j (by omega) h2 y hy'
          rw [low_first al (by omega), ← mul_assoc] at this
          exact lt_of_lt_of_le this (mul_le_mul_of_nonneg_right ha.1 (L.low_pos h2).le),
        fun j h1 h2 y hy => by
          have g1 : u j ≠ v (k + 1) := L.ne_uv _ _ (by omega) (by omega)
          have hy' : s.dist (u j) = some y := by simpa [p2, p3, setKey, g1] using hy
          have := hbd.u j (by omega) h2 y hy'
          rw [low_first al (by omega), ← mul_assoc D, mul_assoc, mul_assoc] at this
          rw [mul_assoc]
          have hbl := (L.al_pos j h2).trans_le (L.al_bl j h2)
          rw [← mul_assoc D] at this
          exact lt_of_lt_of_le this (mul_le_mul_of_nonneg_right ha.1 (mul_pos (L.low_pos h2.le) hbl).le)⟩
    -- what it left
    obtain ⟨f1, -⟩ := e7 (v (k + 2)) (fun j h1 h2 h => absurd (L.inj_v _ _ (by omega) (by omega) h) (by omega))
      (fun j h1 h2 => (L.ne_uv _ _ (by omega) (by omega)).symm)
    obtain ⟨f2, f2'⟩ := e7 (u (k + 1)) (fun j h1 h2 => L.ne_uv _ _ (by omega) (by omega))
      (fun j h1 h2 h => absurd (L.inj_u _ _ (by omega) (by omega) h) (by omega))
    obtain ⟨f3, f3'⟩ := e7 (v (k + 1)) (fun j h1 h2 h => absurd (L.inj_v _ _ (by omega) (by omega) h) (by omega))
      (fun j h1 h2 => (L.ne_uv _ _ (by omega) (by omega)).symm)
    have f1 : t1.seen (v (k + 2)) = some Da := by rw [f1]; simp [p2, p3, setKey]
    have f2 : t1.seen (u (k + 1)) = some Db := by rw [f2]; simp [p2, p3, setKey, n4]
    have f2' : t1.dist (u (k + 1)) = s.dist (u (k + 1)) := by rw [f2' n4]; simp [p2, p3, setKey, n2.symm]
    have f3 : t1.seen (v (k + 1)) = some y0 := by rw [f3, ← hy0]; simp [p2, p3, setKey, n2, n3]
    -- the second exploration, by way of `u (k + 1)`
    obtain ⟨r2, hrp2, hstep2⟩ := dijStep_pop (g := g) (mul := mul) (s := t1) (src := src) (rest := r) e3
      (fun e he => hm1.2.trans_lt (hr e (hrp.mem_iff.1 he)))
      (fun y hy => by
        rw [f2'] at hy
        have := hbd.u (k + 1) le_rfl hkn y hy
        rw [low_self, mul_one] at this
        exact (lt_of_lt_of_le this hb.1).le)
      (L.src_u (k + 1) hkn)
    rw [L.adj_u (k + 1) hkn, List.foldl_cons, List.foldl_cons, List.foldl_nil,
      relaxEdge_noop (x := v (k + 1)) (y := y0) (by exact f3) (by rw [L.unit _ _ hFb]; exact hm1.2.trans hle0),
      relaxEdge_push (x := v (k + 1 + 1)) (fun y hy => by
        have hy' : t1.seen (v (k + 2)) = some y := hy
        rw [f1] at hy'
        obtain rfl := Option.some.inj hy'
        rw [L.unit _ _ hFb]
        exact hab), L.unit _ _ hFb] at hstep2
    obtain ⟨s3, c3, hstep2, p4, p5, p6⟩ : ∃ s3 c3, dijStep g 1 mul src none none t1 = .cont s3 ∧
        s3.fringe = (Db, c3, v (k + 2)) :: r2 ∧ s3.seen = setKey t1.seen (v (k + 2)) Db ∧
        s3.dist = setKey t1.dist (u (k + 1)) Db := ⟨_, _, hstep2, rfl, rfl, rfl⟩
    have step3 : ∀ j, k + 2 ≤ j → j ≤ n → Da * low bh (k + 2) j < Db * low al (k + 2) j := by
      intro j h1 h2
      have hc := L.cross (k + 1) j (by omega) h2
      have p1 : 0 < low bh (k + 2) j := Finset.prod_pos (fun i hi => by
        rw [Finset.mem_Ico] at hi
        have i1 := L.al_pos i (by omega)
        have i2 := L.al_bl i (by omega)
        exact lt_of_lt_of_le (i1.trans_le i2) (L.bl_bh i (by omega)))
      calc Da * low bh (k + 2) j ≤ D * ah (k + 1) * low bh (k + 2) j := mul_le_mul_of_nonneg_right ha.2 p1.le
        _ = D * (ah (k + 1) * low bh (k + 2) j) := mul_assoc _ _ _
        _ < D * (bl (k + 1) * low al (k + 2) j) := mul_lt_mul_of_pos_left hc hDp
        _ = D * bl (k + 1) * low al (k + 2) j := (mul_assoc _ _ _).symm
        _ ≤ _ := mul_le_mul_of_nonneg_right hb.1 (L.low_pos h2).le
    have step3u : ∀ j, k + 2 ≤ j → j < n → Da * low bh (k + 2) (j + 1) < Db * low al (k + 2) j * bl j := by
      intro j h1 h2
      refine lt_of_lt_of_le (step3 (j + 1) (by omega) h2) ?_
      rw [low_last al h1, ← mul_assoc]
      exact mul_le_mul_of_nonneg_left (L.al_bl j h2) (mul_pos (L.pos _ _ hFb) (L.low_pos h2.le)).le
    obtain ⟨T2, t2, q1, q2, q3, q4, q5, q6, q7⟩ := ih (k + 1) (by omega) s3 Db c3 r2 (by rw [p4])
      (fun e he => hm1.2.trans_lt (hr e (hrp.mem_iff.1 (hrp2.mem_iff.1 he))))
      hFb
      (fun y hy => by
        have hy' : t1.dist (v (k + 2)) = some y := by simpa [p5, p6, setKey, n1] using hy
        rw [e6] at hy'
        obtain rfl := Option.some.inj hy'
        exact hab.le)
      ⟨Db, by simp [p5, p6, setKey], le_rfl⟩
      ⟨y0, by simpa [p5, p6, setKey, n3] using f3, hm1.2.trans hle0⟩
      ⟨Db, by simpa [p5, p6, setKey, n4] using f2, le_rfl⟩
      ⟨fun j h1 h2 y hy => by
          have g1 : v j ≠ v (k + 2) := fun h => absurd (L.inj_v _ _ (by omega) (by omega) h) (by omega)
          have hy' : t1.seen (v j) = some y := by simpa [p5, p6, setKey, g1] using hy
          exact lt_of_le_of_lt (e4.v j h1 h2 y hy') (step3 j (by omega) h2),
        fun j h1 h2 y hy => by
          have g1 : u j ≠ v (k + 2) := L.ne_uv _ _ (by omega) (by omega)
          have hy' : t1.seen (u j) = some y := by simpa [p5, p6, setKey, g1] using hy
          exact lt_of_le_of_lt (e4.u j h1 h2 y hy') (step3u j (by omega) h2)⟩
      ⟨fun j h1 h2 y hy => by
          have g1 : v j ≠ u (k + 1) := (L.ne_uv _ _ (by omega) (by omega)).symm
          have hy' : t1.dist (v j) = some y := by simpa [p5, p6, setKey, g1] using hy
          exact lt_of_le_of_lt (e5.v j h1 h2 y hy') (step3 j (by omega) h2),
        fun j h1 h2 y hy => by
          have g1 : u j ≠ u (k + 1) := fun h => absurd (L.inj_u _ _ (by omega) (by omega) h) (by omega)
          have hy' : t1.dist (u j) = some y := by simpa [p5, p6, setKey, g1] using hy
          exact lt_of_le_of_lt (e5.u j h1 h2 y hy') (step3u j (by omega) h2)⟩
    have bhp : ∀ j, j ≤ n → 0 < low bh (k + 2) j := fun j hj => Finset.prod_pos (fun i hi => by
      rw [Finset.mem_Ico] at hi
      have i1 := L.al_pos i (by omega)
      have i2 := L.al_bl i (by omega)
      exact lt_of_lt_of_le (i1.trans_le i2) (L.bl_bh i (by omega)))
    have up : ∀ j, k + 1 < j → j ≤ n → Db * low bh (k + 2) j ≤ D * low bh (k + 1) j := by
      intro j h1 h2
      rw [low_first bh h1, ← mul_assoc]
      exact mul_le_mul_of_nonneg_right hb.2 (bhp j h2).le
    obtain ⟨w1, -⟩ := q7 (v (k + 2)) (fun j h1 h2 h => absurd (L.inj_v _ _ (by omega) (by omega) h) (by omega))
      (fun j h1 h2 => (L.ne_uv _ _ (by omega) (by omega)).symm)
    obtain ⟨w2, w2'⟩ := q7 (u (k + 1)) (fun j h1 h2 => L.ne_uv _ _ (by omega) (by omega))
      (fun j h1 h2 h => absurd (L.inj_u _ _ (by omega) (by omega) h) (by omega))
    have w1 : t2.seen (v (k + 2)) = some Db := by rw [w1]; simp [p5, p6, setKey]
    have w2 : t2.seen (u (k + 1)) = some Db := by rw [w2]; simpa [p5, p6, setKey, n4] using f2
    have w2' : t2.dist (u (k + 1)) = some Db := by rw [w2' n4]; simp [p5, p6, setKey]
    refine ⟨T1 + (T2 + 1) + 1, t2, by rw [pow_succ]; omega, .step hstep (e2.trans (.step hstep2 q2)),
      q3.trans (hrp2.trans hrp), ⟨?_, ?_⟩, ⟨?_, ?_⟩, ?_, ?_⟩
    · intro j h1 h2 y hy
      rcases Nat.eq_or_lt_of_le (show k + 2 ≤ j by omega) with rfl | h3
      · rw [w1] at hy
        obtain rfl := Option.some.inj hy
        have := up (k + 2) (by omega) h2
        rwa [low_self, mul_one] at this
      · exact (q4.v j h3 h2 y hy).trans (up j h1 h2)
    · intro j h1 h2 y hy
      rcases Nat.eq_or_lt_of_le h1 with rfl | h3
      · rw [w2] at hy
        obtain rfl := Option.some.inj hy
        have := up (k + 2) (by omega) (by omega)
        rwa [low_self, mul_one] at this
      · exact (q4.u j h3 h2 y hy).trans (up (j + 1) (by omega) h2)
    · intro j h1 h2 y hy
      rcases Nat.eq_or_lt_of_le (show k + 2 ≤ j by omega) with rfl | h3
      · rw [q6] at hy
        obtain rfl := Option.some.inj hy
        have := up (k + 2) (by omega) h2
        rwa [low_self, mul_one] at this
      · exact (q5.v j h3 h2 y hy).trans (up j h1 h2)
    · intro j h1 h2 y hy
      rcases Nat.eq_or_lt_of_le h1 with rfl | h3
      · rw [w2'] at hy
        obtain rfl := Option.some.inj hy
        have := up (k + 2) (by omega) (by omega)
        rwa [low_self, mul_one] at this
      · exact (q5.u j h3 h2 y hy).trans (up (j + 1) (by omega) h2)
    · obtain ⟨-, w3⟩ := q7 (v (k + 1)) (fun j h1 h2 h => absurd (L.inj_v _ _ (by omega) (by omega) h) (by omega))
        (fun j h1 h2 => (L.ne_uv _ _ (by omega) (by omega)).symm)
      rw [w3 n3, show s3.dist (v (k + 1)) = t1.dist (v (k + 1)) by simp [p6, setKey, n2], f3' n3]
      simp [p3, setKey]
    · intro x hx1 hx2
      have x1 : x ≠ v (k + 2) := hx1 (k + 2) (by omega) (by omega)
      have x2 : x ≠ u (k + 1) := hx2 (k + 1) le_rfl hkn
      obtain ⟨z1, z2⟩ := q7 x (fun j h1 h2 => hx1 j (by omega) h2) (fun j h1 h2 => hx2 j (by omega) h2)
      obtain ⟨z3, z4⟩ := e7 x (fun j h1 h2 => hx1 j (by omega) h2) (fun j h1 h2 => hx2 j (by omega) h2)
      refine ⟨?_, fun x3 => ?_⟩
      · rw [z1]
        simp only [p5, setKey, x1, if_false]
        rw [z3]
        simp [p2, setKey, x1, x2]
      · rw [z2 x1]
        simp only [p6, setKey, x2, if_false]
        rw [z4 x1]
        simp [p3, setKey, x3]

/-- The search from a source before the ladder takes at least `2^n` iterations. -/
theorem start (hn : 0 < n) (hs : g.adj src = [(v 0, some 1)])
    (h0 : g.adj (v 0) = [(src, some 1), (u 0, some (b 0)), (v 1, some (a 0))]) (hF : F 0 1) (hb1 : bh 0 < 1)
    {fuel : Nat} (hf : fuel ≤ 2 ^ n) : modDijkstra g 0 1 mul src none none fuel = none := by
  obtain ⟨d, rfl⟩ : ∃ d, n = d + 1 := ⟨n - 1, by omega⟩
  have ha := L.mul_a 0 1 hn hF
  have hb := L.mul_b 0 1 hn hF
  have hab := L.lt_ab 0 hn hF
  have hFa := L.Fa 0 1 hn hF
  have hFb := L.Fb 0 1 hn hF
  have hDb1 : mul 1 (b 0) < 1 := lt_of_le_of_lt hb.2 (by rw [one_mul]; exact hb1)
  have m1 : v 0 ≠ src := L.src_v 0 (by omega)
  have m2 : v 1 ≠ src := L.src_v 1 (by omega)
  have m3 : u 0 ≠ src := L.src_u 0 (by omega)
  have n1 : v 1 ≠ u 0 := (L.ne_uv _ _ (by omega) (by omega)).symm
  have n2 : v 0 ≠ u 0 := (L.ne_uv _ _ (by omega) (by omega)).symm
  have n3 : v 0 ≠ v 1 := fun h => absurd (L.inj_v _ _ (by omega) (by omega) h) (by omega)
  have n4 : u 0 ≠ v 1 := n1.symm
  -- the source
  obtain ⟨s0, hst0, i1, i2, i3⟩ : ∃ s0, dijStep g 1 mul src none none (dijInit 0 src) = .cont s0 ∧
      s0.fringe = [(1, 1, v 0)] ∧ s0.seen = setKey (fun x => if x = src then some 0 else none) (v 0) 1 ∧
      s0.dist = setKey (fun _ => none) src 1 := by
    refine ⟨⟨setKey (fun _ => none) src 1, setKey (fun x => if x = src then some 0 else none) (v 0) 1,
      [(1, 1, v 0)], 2⟩, ?_, rfl, rfl, rfl⟩
    simp [dijStep, dijInit, popMin, alreadySearched, hs, relaxEdge, m1, L.unit _ 1 hF]
  -- the first node of the ladder
  obtain ⟨r, hrp, hstep⟩ := dijStep_pop (g := g) (mul := mul) (src := src) (s := s0) (rest := []) (d := 1) (c := 1)
    (v := v 0) (by rw [i1]) (by simp) (by intro y hy; simp [i3, setKey, m1] at hy) m1
  obtain rfl := List.perm_nil.1 hrp
  rw [h0, List.foldl_cons, List.foldl_cons, List.foldl_cons, List.foldl_nil,
    relaxEdge_push (x := src) (fun y hy => by
      have hy' : s0.seen src = some y := hy
      rw [i2] at hy'
      simp only [setKey, m1.symm, if_false, if_true, Option.some.injEq] at hy'
      rw [← hy', L.unit _ 1 hF]
      exact one_pos),
    relaxEdge_push (x := u 0) (fun y hy => by simp [i2, setKey, n2.symm, m3] at hy),
    relaxEdge_push (x := v 1) (fun y hy => by simp [i2, setKey, n1, n3.symm, m2] at hy), L.unit _ 1 hF] at hstep
  generalize hDa : mul 1 (a 0) = Da at *
  generalize hDb : mul 1 (b 0) = Db at *
  obtain ⟨s1, c1, c2, c3, hstep, p1, p2, p3⟩ : ∃ s1 c1 c2 c3, dijStep g 1 mul src none none s0 = .cont s1 ∧
      s1.fringe = [(Da, c1, v 1), (Db, c2, u 0), (1, c3, src)] ∧
      s1.seen = setKey (setKey (setKey s0.seen src 1) (u 0) Db) (v 1) Da ∧
      s1.dist = setKey s0.dist (v 0) 1 := ⟨_, _, _, _, hstep, rfl, rfl, rfl⟩
  have fresh : ∀ x, x ≠ src → x ≠ v 0 → s0.seen x = none ∧ s0.dist x = none := by
    intro x h1 h2
    simp [i2, i3, setKey, h1, h2]
  have fv : ∀ j, 1 ≤ j → j ≤ d + 1 → s0.seen (v j) = none ∧ s0.dist (v j) = none := fun j h1 h2 =>
    fresh _ (L.src_v _ h2) (fun h => absurd (L.inj_v _ _ h2 (by omega) h) (by omega))
  have fu : ∀ j, j < d + 1 → s0.seen (u j) = none ∧ s0.dist (u j) = none := fun j h2 =>
    fresh _ (L.src_u _ h2) (L.ne_uv _ _ h2 (by omega))
  obtain ⟨T1, t1, e1, e2, e3, e4, e5, e6, e7⟩ := L.explore d 0 (by omega) s1 Da c1 [(Db, c2, u 0), (1, c3, src)]
    (by rw [p1])
    (fun e he => by
      rcases List.mem_cons.1 he with rfl | he
      · exact hab
      · rw [List.mem_singleton] at he
        subst he
        exact hab.trans hDb1)
    hFa
    (fun y hy => by simp [p3, setKey, n3.symm, (fv 1 le_rfl (by omega)).2] at hy)
    ⟨Da, by simp [p2, setKey], le_rfl⟩
    ⟨1, by simp [p2, i2, setKey, n2, n3, m1], (hab.trans hDb1).le⟩
    ⟨Db, by simp [p2, setKey, n4], hab.le⟩
    ⟨fun j h1 h2 y hy => by
        have g1 : v j ≠ v 1 := fun h => absurd (L.inj_v _ _ (by omega) (by omega) h) (by omega)
        have g2 : v j ≠ u 0 := (L.ne_uv _ _ (by omega) (by omega)).symm
        simp [p2, setKey, g1, g2, L.src_v j h2, (fv j (by omega) h2).1] at hy,
      fun j h1 h2 y hy => by
        have g1 : u j ≠ v 1 := L.ne_uv _ _ (by omega) (by omega)
        have g2 : u j ≠ u 0 := fun h => absurd (L.inj_u _ _ (by omega) (by omega) h) (by omega)
        simp [p2, setKey, g1, g2, L.src_u j h2, (fu j h2).1] at hy⟩
    ⟨fun j h1 h2 y hy => by
        have g1 : v j ≠ v 0 := fun h => absurd (L.inj_v _ _ (by omega) (by omega) h) (by omega)
        simp [p3, setKey, g1, (fv j (by omega) h2).2] at hy,
      fun j h1 h2 y hy => by
        have g1 : u j ≠ v 0 := L.ne_uv _ _ (by omega) (by omega)
        simp [p3, setKey, g1, (fu j h2).2] at hy⟩
  obtain ⟨f1, -⟩ := e7 (v 1) (fun j h1 h2 h => absurd (L.inj_v _ _ (by omega) (by omega) h) (by omega))
    (fun j h1 h2 => (L.ne_uv _ _ (by omega) (by omega)).symm)
  obtain ⟨f2, f2'⟩ := e7 (u 0) (fun j h1 h2 => L.ne_uv _ _ (by omega) (by omega))
    (fun j h1 h2 h => absurd (L.inj_u _ _ (by omega) (by omega) h) (by omega))
  obtain ⟨f3, f3'⟩ := e7 (v 0) (fun j h1 h2 h => absurd (L.inj_v _ _ (by omega) (by omega) h) (by omega))
    (fun j h1 h2 => (L.ne_uv _ _ (by omega) (by omega)).symm)
  have f1 : t1.seen (v 1) = some Da := by rw [f1]; simp [p2, setKey]
  have f2 : t1.seen (u 0) = some Db := by rw [f2]; simp [p2, setKey, n4]
  have f2' : t1.dist (u 0) = none := by rw [f2' n4]; simp [p3, setKey, n2.symm, (fu 0 (by omega)).2]
  have f3 : t1.seen (v 0) = some 1 := by rw [f3]; simp [p2, i2, setKey, n2, n3, m1]
  obtain ⟨r2, hrp2, hstep2⟩ := dijStep_pop (g := g) (mul := mul) (s := t1) (src := src) e3
    (fun e he => by
      rw [List.mem_singleton] at he
      subst he
      exact hDb1)
    (fun y hy => by rw [f2'] at hy; cases hy) m3
  rw [L.adj_u 0 (by omega), List.foldl_cons, List.foldl_cons, List.foldl_nil,
    relaxEdge_noop (x := v 0) (y := 1) (by exact f3) (by rw [L.unit _ _ hFb]; exact hDb1.le),
    relaxEdge_push (x := v (0 + 1)) (fun y hy => by
      have hy' : t1.seen (v 1) = some y := hy
      rw [f1] at hy'
      obtain rfl := Option.some.inj hy'
      rw [L.unit _ _ hFb]
      exact hab), L.unit _ _ hFb] at hstep2
  obtain ⟨s3, c4, hstep2, p4, p5, p6⟩ : ∃ s3 c3, dijStep g 1 mul src none none t1 = .cont s3 ∧
      s3.fringe = (Db, c3, v 1) :: r2 ∧ s3.seen = setKey t1.seen (v 1) Db ∧
      s3.dist = setKey t1.dist (u 0) Db := ⟨_, _, hstep2, rfl, rfl, rfl⟩
  have bhp : ∀ j, j ≤ d + 1 → 0 < low bh 1 j := fun j hj => Finset.prod_pos (fun i hi => by
    rw [Finset.mem_Ico] at hi
    have i1 := L.al_pos i (by omega)
    have i2 := L.al_bl i (by omega)
    exact lt_of_lt_of_le (i1.trans_le i2) (L.bl_bh i (by omega)))
  have step3 : ∀ j, 1 ≤ j → j ≤ d + 1 → Da * low bh 1 j < Db * low al 1 j := by
    intro j h1 h2
    have hc := L.cross 0 j (by omega) h2
    rw [one_mul, one_mul] at ha hb
    calc Da * low bh 1 j ≤ ah 0 * low bh 1 j := mul_le_mul_of_nonneg_right ha.2 (bhp j h2).le
      _ < bl 0 * low al 1 j := hc
      _ ≤ _ := mul_le_mul_of_nonneg_right hb.1 (L.low_pos h2).le
  have step3u : ∀ j, 1 ≤ j → j < d + 1 → Da * low bh 1 (j + 1) < Db * low al 1 j * bl j := by
    intro j h1 h2
    refine lt_of_lt_of_le (step3 (j + 1) (by omega) h2) ?_
    rw [low_last al h1, ← mul_assoc]
    exact mul_le_mul_of_nonneg_left (L.al_bl j h2) (mul_pos (L.pos _ _ hFb) (L.low_pos h2.le)).le
  obtain ⟨T2, t2, q1, q2, -⟩ := L.explore d 0 (by omega) s3 Db c4 r2 (by rw [p4])
    (fun e he => by
      have := hrp2.mem_iff.1 he
      rw [List.mem_singleton] at this
      subst this
      exact hDb1)
    hFb
    (fun y hy => by
      have hy' : t1.dist (v 1) = some y := by simpa [p6, setKey, n1] using hy
      rw [e6] at hy'
      obtain rfl := Option.some.inj hy'
      exact hab.le)
    ⟨Db, by simp [p5, setKey], le_rfl⟩
    ⟨1, by simpa [p5, setKey, n3] using f3, hDb1.le⟩
    ⟨Db, by simpa [p5, setKey, n4] using f2, le_rfl⟩
    ⟨fun j h1 h2 y hy => by
        have g1 : v j ≠ v 1 := fun h => absurd (L.inj_v _ _ (by omega) (by omega) h) (by omega)
        have hy' : t1.seen (v j) = some y := by simpa [p5, setKey, g1] using hy
        exact lt_of_le_of_lt (e4.v j h1 h2 y hy') (step3 j (by omega) h2),
      fun j h1 h2 y hy => by
        have g1 : u j ≠ v 1 := L.ne_uv _ _ (by omega) (by omega)
        have hy' : t1.seen (u j) = some y := by simpa [p5, setKey, g1] using hy
        exact lt_of_le_of_lt (e4.u j h1 h2 y hy') (step3u j (by omega) h2)⟩
    ⟨fun j h1 h2 y hy => by
        have g1 : v j ≠ u 0 := (L.ne_uv _ _ (by omega) (by omega)).symm
        have hy' : t1.dist (v j) = some y := by simpa [p6, setKey, g1] using hy
        exact lt_of_le_of_lt (e5.v j h1 h2 y hy') (step3 j (by omega) h2),
      fun j h1 h2 y hy => by
        have g1 : u j ≠ u 0 := fun h => absurd (L.inj_u _ _ (by omega) (by omega) h) (by omega)
        have hy' : t1.dist (u j) = some y := by simpa [p6, setKey, g1] using hy
        exact lt_of_le_of_lt (e5.u j h1 h2 y hy') (step3u j (by omega) h2)⟩
  refine (Steps.step hst0 (.step hstep (e2.trans (.step hstep2 q2)))).none (hf.trans ?_)
  rw [pow_succ]
  omega

end Ladder
end Verif
