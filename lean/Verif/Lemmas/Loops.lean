/-
Rules for reasoning about the counting loops of `Verif.Model.Loops`.
-/
import Verif.Model.Loops
import Mathlib.Tactic.Abel

namespace Pansfem

/-! ### Loop rules -/

section
variable {S : Type*}

theorem forUp_same (lo : ℕ) (f : ℕ → S → S) (s : S) : forUp lo lo f s = s := by simp [forUp]

theorem forUp_succ {lo hi : ℕ} (h : lo ≤ hi) (f : ℕ → S → S) (s : S) :
    forUp lo (hi + 1) f s = f hi (forUp lo hi f s) := by
  unfold forUp
  rw [show hi + 1 - lo = (hi - lo) + 1 by omega, List.range'_1_concat, List.foldl_append]
  simp [show lo + (hi - lo) = hi by omega]

/-- Invariant rule. -/
theorem forUp_inv {lo hi : ℕ} (h : lo ≤ hi) (f : ℕ → S → S) (s : S) (P : ℕ → S → Prop)
    (h0 : P lo s) (hs : ∀ i t, lo ≤ i → i < hi → P i t → P (i + 1) (f i t)) :
    P hi (forUp lo hi f s) := by
  induction hi, h using Nat.le_induction with
  | base => rwa [forUp_same]
  | succ n hn ih =>
    rw [forUp_succ hn]
    exact hs n _ hn (by omega) (ih fun i t h1 h2 => hs i t h1 (by omega))

theorem forUpM_same (lo : ℕ) (f : ℕ → S → Option S) (s : S) : forUpM lo lo f s = some s := by
  simp [forUpM]

theorem forUpM_succ {lo hi : ℕ} (h : lo ≤ hi) (f : ℕ → S → Option S) (s : S) :
    forUpM lo (hi + 1) f s = (forUpM lo hi f s).bind (f hi) := by
  unfold forUpM
  rw [show hi + 1 - lo = (hi - lo) + 1 by omega, List.range'_1_concat, List.foldlM_append]
  simp [show lo + (hi - lo) = hi by omega]

/-- Invariant rule, partial correctness: what holds if the loop finishes. -/
theorem forUpM_inv {lo hi : ℕ} (h : lo ≤ hi) (f : ℕ → S → Option S) (s t : S)
    (P : ℕ → S → Prop) (h0 : P lo s)
    (hs : ∀ i u v, lo ≤ i → i < hi → P i u → f i u = some v → P (i + 1) v)
    (ht : forUpM lo hi f s = some t) : P hi t := by
  induction hi, h using Nat.le_induction generalizing t with
  | base => rw [forUpM_same] at ht; rwa [← Option.some.inj ht]
  | succ n hn ih =>
    rw [forUpM_succ hn] at ht
    obtain ⟨u, hu, hv⟩ := Option.bind_eq_some_iff.1 ht
    exact hs n u t hn (by omega) (ih u (fun i u v h1 h2 => hs i u v h1 (by omega)) hu) hv

/-- Invariant rule, total correctness: the loop finishes. -/
theorem forUpM_total {lo hi : ℕ} (h : lo ≤ hi) (f : ℕ → S → Option S) (s : S)
    (P : ℕ → S → Prop) (h0 : P lo s)
    (hs : ∀ i u, lo ≤ i → i < hi → P i u → ∃ v, f i u = some v ∧ P (i + 1) v) :
    ∃ t, forUpM lo hi f s = some t ∧ P hi t := by
  induction hi, h using Nat.le_induction with
  | base => exact ⟨s, forUpM_same _ _ _, h0⟩
  | succ n hn ih =>
    obtain ⟨u, hu, hP⟩ := ih fun i u h1 h2 => hs i u h1 (by omega)
    obtain ⟨v, hv, hP'⟩ := hs n u hn (by omega) hP
    exact ⟨v, by rw [forUpM_succ hn, hu]; exact hv, hP'⟩

theorem forDownM_same (lo : ℕ) (f : ℕ → S → Option S) (s : S) : forDownM lo lo f s = some s := by
  simp [forDownM]

theorem forDownM_step {lo hi : ℕ} (h : lo < hi) (f : ℕ → S → Option S) (s : S) :
    forDownM lo hi f s = (forDownM (lo + 1) hi f s).bind (f lo) := by
  unfold forDownM
  rw [show hi - lo = (hi - (lo + 1)) + 1 by omega, List.range'_succ, List.reverse_cons,
    List.foldlM_append]
  simp

/-- Invariant rule for the descending loop, partial correctness. -/
theorem forDownM_inv {lo hi : ℕ} (h : lo ≤ hi) (f : ℕ → S → Option S) (s t : S)
    (P : ℕ → S → Prop) (h0 : P hi s)
    (hs : ∀ i u v, lo ≤ i → i < hi → P (i + 1) u → f i u = some v → P i v)
    (ht : forDownM lo hi f s = some t) : P lo t := by
  induction h using Nat.decreasingInduction generalizing t with
  | self => rw [forDownM_same] at ht; rwa [← Option.some.inj ht]
  | of_succ n hn ih =>
    rw [forDownM_step hn] at ht
    obtain ⟨u, hu, hv⟩ := Option.bind_eq_some_iff.1 ht
    exact hs n u t le_rfl hn (ih u (fun i u v h1 h2 => hs i u v (by omega) h2) hu) hv

/-- Invariant rule for the descending loop, total correctness. -/
theorem forDownM_total {lo hi : ℕ} (h : lo ≤ hi) (f : ℕ → S → Option S) (s : S)
    (P : ℕ → S → Prop) (h0 : P hi s)
    (hs : ∀ i u, lo ≤ i → i < hi → P (i + 1) u → ∃ v, f i u = some v ∧ P i v) :
    ∃ t, forDownM lo hi f s = some t ∧ P lo t := by
  induction h using Nat.decreasingInduction with
  | self => exact ⟨s, forDownM_same _ _ _, h0⟩
  | of_succ n hn ih =>
    obtain ⟨u, hu, hP⟩ := ih fun i u h1 h2 => hs i u (by omega) h2
    obtain ⟨v, hv, hP'⟩ := hs n u le_rfl hn hP
    exact ⟨v, by rw [forDownM_step hn, hu]; exact hv, hP'⟩

theorem forDown_same (lo : ℕ) (f : ℕ → S → S) (s : S) : forDown lo lo f s = s := by
  simp [forDown]

theorem forDown_step {lo hi : ℕ} (h : lo < hi) (f : ℕ → S → S) (s : S) :
    forDown lo hi f s = f lo (forDown (lo + 1) hi f s) := by
  unfold forDown
  rw [show hi - lo = (hi - (lo + 1)) + 1 by omega, List.range'_succ, List.reverse_cons,
    List.foldl_append]
  simp

/-- Invariant rule for the descending loop. -/
theorem forDown_inv {lo hi : ℕ} (h : lo ≤ hi) (f : ℕ → S → S) (s : S)
    (P : ℕ → S → Prop) (h0 : P hi s)
    (hs : ∀ i u, lo ≤ i → i < hi → P (i + 1) u → P i (f i u)) :
    P lo (forDown lo hi f s) := by
  induction h using Nat.decreasingInduction with
  | self => rwa [forDown_same]
  | of_succ n hn ih =>
    rw [forDown_step hn]
    exact hs n _ le_rfl hn (ih fun i u h1 h2 => hs i u (by omega) h2)

end

section
variable {K : Type*}

@[simp] theorem upd1_self (v : ℕ → K) (i : ℕ) (x : K) : upd1 v i x i = x := by simp [upd1]

theorem upd1_ne (v : ℕ → K) {i k : ℕ} (x : K) (h : k ≠ i) : upd1 v i x k = v k := by
  simp [upd1, h]

theorem upd2_self (A : ℕ → ℕ → K) (i j : ℕ) (x : K) : upd2 A i j x i j = x := by simp [upd2]

theorem upd2_ne (A : ℕ → ℕ → K) {i j a b : ℕ} (x : K) (h : ¬ (a = i ∧ b = j)) :
    upd2 A i j x a b = A a b := by simp [upd2, h]

/-- `for j in [lo, hi): v(i) -= a(j)*v(j)`-style accumulation into one element that the terms do not
read. -/
theorem accum_sub [AddCommGroup K] {lo hi : ℕ} (h : lo ≤ hi) (i : ℕ) (t : ℕ → (ℕ → K) → K)
    (v : ℕ → K) (ht : ∀ j w, lo ≤ j → j < hi → (∀ k, k ≠ i → w k = v k) → t j w = t j v) :
    forUp lo hi (fun j w => upd1 w i (w i - t j w)) v
      = upd1 v i (v i - ∑ j ∈ Finset.Ico lo hi, t j v) := by
  have := forUp_inv h (fun j w => upd1 w i (w i - t j w)) v
    (fun n w => (∀ k, k ≠ i → w k = v k) ∧ w i = v i - ∑ j ∈ Finset.Ico lo n, t j v)
    ⟨fun _ _ => rfl, by simp⟩ (by
      intro j w h1 h2 ⟨hw, hi⟩
      refine ⟨fun k hk => by rw [upd1_ne _ _ hk, hw k hk], ?_⟩
      rw [upd1_self, Finset.sum_Ico_succ_top h1, hi, ht j w h1 h2 hw]
      abel)
  funext k
  by_cases hk : k = i
  · subst hk; rw [this.2, upd1_self]
  · rw [this.1 k hk, upd1_ne _ _ hk]

end

end Pansfem
