import Verif.Model.StPlots

/-!
# Specification of the plots of random results

At every point of an axis there are the values of the samples, `rows`.
-/

namespace Ross.Spec

open Ross.Stochastic

/-- The mean of the samples at every point. -/
def MeanOf (rows : List (List ℝ)) (l : List ℝ) : Prop :=
  List.Forall₂ (fun s y => y * (s.length : ℝ) = s.sum) rows l

/-- The percentile `q` of the samples at every point (see C72). -/
def PercentileOf (rows : List (List ℝ)) (q : ℝ) (l : List ℝ) : Prop :=
  List.Forall₂ (fun s y => percentile s q = .ok y) rows l

/-- The limits of a confidence interval: the upper ones, and back along the lower ones. -/
def BandOf (rows : List (List ℝ)) (p : ℝ) (l : List ℝ) : Prop :=
  ∃ up low, l = up ++ low.reverse ∧ PercentileOf rows (50 + p / 2) up ∧ PercentileOf rows (50 - p / 2) low

/-- One curve for each of the percentages, in increasing order. -/
def EachOf {γ : Type} (ps : List ℝ) (is : ℝ → γ → Prop) (cs : List γ) : Prop :=
  ∃ ps', ps'.Perm ps ∧ ps'.Pairwise (· ≤ ·) ∧ List.Forall₂ is ps' cs

/-- The statistics of the samples against `x`. -/
structure Shows (fig : StFigure Curve) (x : List ℝ) (rows : List (List ℝ)) (percentile conf : List ℝ) : Prop where
  mean : fig.mean.x = x ∧ MeanOf rows fig.mean.y
  percentiles : EachOf percentile (fun p c => c.x = x ∧ PercentileOf rows p c.y) fig.percentiles
  bands : EachOf conf (fun p c => c.x = x ++ x.reverse ∧ BandOf rows p c.y) fig.bands

/-- The statistics of two coordinates of the samples. -/
structure ShowsBoth (fig : StFigure Curve) (rx ry : List (List ℝ)) (percentile conf : List ℝ) : Prop where
  mean : MeanOf rx fig.mean.x ∧ MeanOf ry fig.mean.y
  percentiles : EachOf percentile (fun p c => PercentileOf rx p c.x ∧ PercentileOf ry p c.y) fig.percentiles
  bands : EachOf conf (fun p c => BandOf rx p c.x ∧ BandOf ry p c.y) fig.bands

/-- Percentages that can be asked for: between 0 and 100, and not more than there are colors. -/
def Percentages (colors : Option ℕ) (ps : List ℝ) : Prop :=
  (∀ p ∈ ps, 0 ≤ p ∧ p ≤ 100) ∧ ∀ n, colors = some n → ps.length ≤ n

/-- A quantity of every sample at every instant or frequency: the samples of `g` at the points `0, …, n - 1`. -/
def over {α : Type} (n : ℕ) (samples : List (List α)) (g : α → ℝ) : List (List ℝ) :=
  (List.range n).map fun i => samples.filterMap fun s => s[i]?.map g

end Ross.Spec
