import Verif.Session.Model
import Verif.Constrained.Spec

/-!
# Saving a network and loading it again, on the memory: `Network.save_as_hdf5` and `from_hdf5`
(brainstorm/structure/network.py:69-102, 513-535)

`SaveLoad/Model` (C28) is about what is in the file and about initializers that cannot be created again.  Here the network has its
buffers.  JSON and HDF5 are assumed to give back what was stored, up to the order of dictionaries.
-/

namespace Verif.Reload

open Verif.Structure Verif.Layout Verif.Buffers Verif.Session

/-- What `save_as_hdf5` stores of the buffers: `self.get('parameters')` (network.py:533-535). -/
def saved (st : State ℝ) : Option (List ℝ) := st.read (str "parameters")

/-- `from_hdf5` (network.py:81-102) for a file with the parameters `θ`: the network is built (`__init__` creates the buffers and sets a
handler, network.py:104-113), the handler of the description is set (network.py:72), `initialize` assigns values to the parameters of the layers
(network.py:73, 241-274), and then all parameters are overwritten (network.py:100-101).  `initial` is what `initialize` assigns, in this
order; how it is found is modelled in `References`. -/
def fromHdf5 (net : Net) (initial : List (Name × List ℝ)) (θ : List ℝ) : Option (State ℝ) :=
  (create net).bind fun st =>
  (setHandler net st).bind fun st =>
  (setHandler net st).bind fun st =>
  (writeAll st initial).bind fun st =>
  st.write (str "parameters") θ

end Verif.Reload
