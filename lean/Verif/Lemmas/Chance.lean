import Mathlib.Probability.BorelCantelli
import Mathlib.Probability.ProductMeasure

/-!
# A stream of independent draws has long stretches of zeros
-/

namespace Bento

open MeasureTheory ProbabilityTheory Filter

/-- With draws that are independent and zero with probability at least `ε`, almost every stream has a
stretch of `M` zeros. -/
theorem ae_window (μ : ℕ → Measure ℕ) [∀ i, IsProbabilityMeasure (μ i)] {ε : ENNReal} (hε : ε ≠ 0)
    (h0 : ∀ i, ε ≤ μ i {0}) (M : ℕ) :
    ∀ᵐ ω ∂(Measure.infinitePi μ), ∃ k, ∀ i, k ≤ i → i < k + M → ω i = 0 := by
  classical
  let W : ℕ → Finset ℕ := fun j => Finset.Ico (j * M) (j * M + M)
  let s : ℕ → Set (ℕ → ℕ) := fun j => Set.pi (W j : Set ℕ) (fun _ => {0})
  have hdisj : ∀ i j, i ≠ j → Disjoint (W i) (W j) := by
    intro i j hij
    rw [Finset.disjoint_left]
    intro a ha hb
    simp only [W, Finset.mem_Ico] at ha hb
    rcases Nat.lt_or_gt_of_ne hij with h | h
    · have := Nat.mul_le_mul_right M (show i + 1 ≤ j from h)
      rw [Nat.add_mul] at this; omega
    · have := Nat.mul_le_mul_right M (show j + 1 ≤ i from h)
      rw [Nat.add_mul] at this; omega
  have hms : ∀ j, MeasurableSet (s j) := fun j =>
    MeasurableSet.pi (Finset.countable_toSet _) (fun _ _ => MeasurableSet.singleton 0)
  have hmeas : ∀ F : Finset ℕ, Measure.infinitePi μ (Set.pi (F : Set ℕ) (fun _ => {0}))
      = ∏ i ∈ F, μ i {0} := fun F =>
    Measure.infinitePi_pi μ (fun _ _ => MeasurableSet.singleton 0)
  have hind : iIndepSet s (Measure.infinitePi μ) := by
    rw [iIndepSet_iff_meas_biInter hms]
    intro F
    have : (⋂ j ∈ F, s j) = Set.pi ((F.biUnion W : Finset ℕ) : Set ℕ) (fun _ => {0}) := by
      ext ω
      simp only [s, Set.mem_iInter, Set.mem_pi, Finset.mem_coe, Finset.mem_biUnion]
      constructor
      · rintro h i ⟨j, hj, hi⟩
        exact h j hj i hi
      · intro h j hj i hi
        exact h i ⟨j, hj, hi⟩
    rw [this, hmeas, Finset.prod_biUnion (fun i _ j _ hij => hdisj i j hij)]
    exact Finset.prod_congr rfl (fun j _ => (hmeas _).symm)
  have hsum : (∑' j, Measure.infinitePi μ (s j)) = ⊤ := by
    have hle : ∀ j, ε ^ M ≤ Measure.infinitePi μ (s j) := by
      intro j
      rw [show Measure.infinitePi μ (s j) = ∏ i ∈ W j, μ i {0} from hmeas _]
      calc ε ^ M = ∏ _i ∈ W j, ε := by rw [Finset.prod_const]; simp [W]
        _ ≤ ∏ i ∈ W j, μ i {0} := Finset.prod_le_prod' (fun i _ => h0 i)
    have hpos : ε ^ M ≠ 0 := pow_ne_zero _ hε
    rw [eq_top_iff]
    calc (⊤ : ENNReal) = ∑' _j : ℕ, ε ^ M := (ENNReal.tsum_const_eq_top_of_ne_zero hpos).symm
      _ ≤ _ := ENNReal.tsum_le_tsum hle
  have hone := measure_limsup_eq_one hms hind hsum
  have hae : ∀ᵐ ω ∂(Measure.infinitePi μ), ω ∈ limsup s atTop := by
    rw [← prob_compl_eq_zero_iff (MeasurableSet.measurableSet_limsup hms)] at hone
    exact hone
  filter_upwards [hae] with ω hω
  rw [mem_limsup_iff_frequently_mem] at hω
  obtain ⟨j, hj⟩ := hω.exists
  refine ⟨j * M, fun i h1 h2 => ?_⟩
  exact hj i (by simp [W, h1, h2])

end Bento
