import Verif.Model.Simulation

/-!
# Plots: the data handed to matplotlib (simulation.py:55-91, 288-322, helpers.py:178-189, domain.py:88-95, 141-165, 616-632)

A figure is the list of commands issued to matplotlib, with the axis limits. Colours, line widths, the aspect ratio and the
files written by matplotlib are not modelled.
-/

namespace Tve

/-- the arguments of `ax.tripcolor` (simulation.py:60-70) -/
structure TriPlot where
  x : List ℝ
  y : List ℝ
  c : List ℝ
  triangles : List Tri
  vmin : ℝ
  vmax : ℝ

/-- a point unpacked into two arguments, `f(*p)`; other sizes raise `TypeError` (simulation.py:56, 59, 81) -/
def unpack2 {α : Type} (p : Vec ℝ) (f : ℝ → ℝ → PyM α) : PyM α :=
  match p.data with
  | [a, b] => f a b
  | _ => .error .typeError

namespace Step

/-- `AbstractStep._plot_temperature` (simulation.py:55-70) -/
noncomputable def plotTemperature (s : Step) (maxTemp : ℝ) : PyM TriPlot := do
  let deformed ← pyMap s.grid.points fun p => unpack2 p s.y.call
  let x ← pyMap deformed fun p => p.getItem 0
  let y ← pyMap deformed fun p => p.getItem 1
  let c ← pyMap s.grid.points fun p => unpack2 p s.theta.call
  return ⟨x, y, c, s.grid.triangles, 0, maxTemp⟩

/-- `AbstractStep._plot_deformation_curves` (simulation.py:72-84): the arguments `x`, `y` of the calls of `plt.plot`. The
attribute `_domain_curves` is `domain.curves` (simulation.py:42), here the domain is passed. -/
noncomputable def plotDeformationCurves (s : Step) (domain : RectDomain ℝ) (numPoints numHorizontal : ℕ)
    (numVertical : Option ℕ) : PyM (List (List ℝ × List ℝ)) := do
  let cs ← domain.curves numPoints numHorizontal numVertical
  pyMap cs fun curve => do
    let deformed ← pyMap curve fun p => unpack2 p s.y.call
    let x ← pyMap deformed fun p => p.getItem 0
    let y ← pyMap deformed fun p => p.getItem 1
    return (x, y)

/-- `AbstractStep.plot` (simulation.py:86-91) -/
noncomputable def plot (s : Step) (maxTemp : ℝ) : PyM TriPlot := s.plotTemperature maxTemp

end Step

/-- a figure with one axis: the limits set by `setup_axis` (helpers.py:178-189) and the plot -/
structure Figure where
  xlims : WithTop ℝ × WithBot ℝ
  ylims : WithTop ℝ × WithBot ℝ
  plot : TriPlot

namespace Sim

/-- `Simulation._plot_step` (simulation.py:288-296) -/
noncomputable def figure (s : Sim) (i : ℤ) : PyM (Option Figure) :=
  if i < -s.steps.length ∨ i ≥ s.steps.length then .ok none
  else do
    let step ← pyIdx s.steps i
    let p ← step.plot s.maxTemp
    return some ⟨s.record.xlims, s.record.ylims, p⟩

/-- `Simulation.plot_step` (simulation.py:298-299) -/
noncomputable def plotStep (s : Sim) (i : ℤ) : PyM Unit := do
  let _ ← s.figure i

/-- `Simulation.save_step` (simulation.py:301-311): the index in the name `{path}_{step_index}.png` of the file and the figure
saved there, or nothing -/
noncomputable def saveStep (s : Sim) (i : ℤ) : PyM (Option (ℤ × Figure)) := do
  let fig ← s.figure i
  match fig with
  | none => return none
  | some f => return some (if i ≥ 0 then i else s.steps.length + i, f)

/-- `Simulation.save_animation` (simulation.py:313-322): the frames, drawn in order on the same cleared axis -/
noncomputable def saveAnimation (s : Sim) : PyM (List Figure) :=
  pyMap (List.range s.steps.length) fun (i : ℕ) => do
    let step ← pyIdx s.steps i
    let p ← step.plot s.maxTemp
    return (⟨s.record.xlims, s.record.ylims, p⟩ : Figure)

end Sim

/-! ### plots of grids and domains -/

/-- `PLOT_BORDER` (domain.py:12) -/
noncomputable def plotBorder : ℝ := 5 / 100

/-- an axis: its limits, the points of `scatter`, the segments of `plot` and the rectangles of `add_patch` (domain.py:140-165, 616-632, helpers.py:181-189) -/
structure Axes where
  xlim : ℝ × ℝ
  ylim : ℝ × ℝ
  scatter : List (ℝ × ℝ)
  segments : List ((ℝ × ℝ) × (ℝ × ℝ))
  rectangles : List ((ℝ × ℝ) × ℝ × ℝ)

/-- `min(old_xlim[0], xlim[0]), max(old_xlim[1], xlim[1])` of `_adjust_xlim`, `_adjust_ylim` (domain.py:88-95) -/
noncomputable def adjustLim (old new : ℝ × ℝ) : ℝ × ℝ := (Min.min old.1 new.1, Max.max old.2 new.2)

/-- `Grid._plot_vertices` (domain.py:141-144); `scatter(x, y)` draws the points of `zip(x, y)` -/
noncomputable def Grid.plotVertices (g : Grid ℝ) (ax : Axes) : PyM Axes := do
  let x ← pyMap g.points fun p => p.getItem 0
  let y ← pyMap g.points fun p => p.getItem 1
  return { ax with scatter := ax.scatter ++ x.zip y }

/-- `Grid._plot_edges` (domain.py:146-150) -/
noncomputable def Grid.plotEdges (g : Grid ℝ) (ax : Axes) : PyM Axes :=
  pyFor g.edges ax fun ax e => do
    let p ← pyGet g.points e.1
    let q ← pyGet g.points e.2
    let p0 ← p.getItem 0
    let q0 ← q.getItem 0
    let p1 ← p.getItem 1
    let q1 ← q.getItem 1
    return { ax with segments := ax.segments ++ [((p0, p1), (q0, q1))] }

/-- `Grid.plot` (domain.py:151-165). Called with `None`, the function `fig_axis` is called without arguments, which raises
`TypeError`. -/
noncomputable def Grid.plot (g : Grid ℝ) (ax : Option Axes) : PyM Axes :=
  match ax with
  | none => .error .typeError
  | some ax => do
    let xs ← pyMap g.points fun p => p.getItem 0
    let mx ← NdArray.npMax xs
    let ax := { ax with xlim := adjustLim ax.xlim (-plotBorder, mx + plotBorder) }
    let ys ← pyMap g.points fun p => p.getItem 1
    let my ← NdArray.npMax ys
    let ax := { ax with ylim := adjustLim ax.ylim (-plotBorder, my + plotBorder) }
    let ax ← g.plotVertices ax
    g.plotEdges ax

/-- `RectangleDomain.plot` (domain.py:616-632) -/
noncomputable def RectDomain.plot (d : RectDomain ℝ) (ax : Option Axes) : Axes :=
  let ax : Axes := match ax with
    | none => ⟨(-plotBorder, d.width + plotBorder), (-plotBorder, d.height + plotBorder), [], [], []⟩
    | some ax => ax
  { ax with rectangles := ax.rectangles ++ [((0, 0), d.width, d.height)] }

end Tve
