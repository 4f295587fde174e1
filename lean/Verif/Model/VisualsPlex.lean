import Verif.Model.Visuals
import Verif.Model.Plex

/-! The figure that `draw` makes of a multiplex network (`/repo/pymnet/visuals/drawcore.py` 159-226). -/

namespace Pymnet

/-- The figure that `draw` makes of a multiplex network (drawcore.py 159-226), see `drawFigure`. -/
def MPlex.figure {α W K O : Type} [DecidableEq α] [DecidableEq W] [Zero W] [IntNames α] [LinearOrder O] (p : MPlex α W) (order : LKey α → O)
    (ncoords : Py.Dict α (K × K)) (nlcoords : Py.Dict (α ⊕ List α) (K × K)) (rand : List α → K × K) (size : List α → K) :
    Except Err (Figure α K) :=
  drawFigure p.view p.iterLayers order ncoords nlcoords rand size

end Pymnet
