import Verif.Model.RespPlots

/-! # Model of the table made of a figure (`ross/utils.py` 568-630) -/

namespace Ross.FigureData

open Ross Ross.Stochastic

/-- `dict_data = {data["name"]: {} for data in fig.data}` (`utils.py` 617). -/
def emptyColumns (fig : List (String × Curve)) : Dict String (Dict String (List ℝ)) :=
  fig.foldl (fun d t => Dict.set d t.1 []) []

/-- One round of the loop (`utils.py` 622-624).  The name is a key of `dict_data`. -/
def addTrace (xaxis_label yaxis_label : String) (d : Dict String (Dict String (List ℝ))) (t : String × Curve) :
    Dict String (Dict String (List ℝ)) :=
  Dict.set d t.1 (Dict.set (Dict.set ((Dict.get? d t.1).getD []) xaxis_label t.2.x) yaxis_label t.2.y)

/-- `get_data_from_figure` (`utils.py` 568-628): the columns of the table, each with its rows.  The figure is a list
of named curves and the titles of its axes; `pd.DataFrame` keeps the keys. -/
def getData (fig : List (String × Curve)) (xaxis_label yaxis_label : String) : Dict String (Dict String (List ℝ)) :=
  fig.foldl (addTrace xaxis_label yaxis_label) (emptyColumns fig)

/-- The titles of the axes of the figures of magnitude (`results.py` 2621-2627); `frequency_units` and
`amplitude_units` are the names of the units. -/
def magnitudeTitles (frequency_units amplitude_units : String) : String × String :=
  ("Frequency (" ++ frequency_units ++ ")", "Amplitude (" ++ amplitude_units ++ ")")

/-- The titles of the axes of the figures of phase (`results.py` 2702-2706). -/
def phaseTitles (frequency_units phase_units : String) : String × String :=
  ("Frequency (" ++ frequency_units ++ ")", "Phase (" ++ phase_units ++ ")")

/-- The titles of the axes of the figures over time (`results.py` 4676-4677). -/
def timeTitles (time_units displacement_units : String) : String × String :=
  ("Time (" ++ time_units ++ ")", "Amplitude (" ++ displacement_units ++ ")")

end Ross.FigureData
