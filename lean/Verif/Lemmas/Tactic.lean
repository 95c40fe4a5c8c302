/-!
# Small tactic abbreviations
-/

/-- Close the current goals in order. -/
macro "exacts " "[" hs:term,* "]" : tactic => do
  let tacs ← hs.getElems.mapM fun h => `(tactic| focus exact $h)
  `(tactic| ($[$tacs];*; done))
