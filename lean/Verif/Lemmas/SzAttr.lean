import Lean.Meta.Tactic.Simp.RegisterCommand

/-- Lemmas that push `val`, which forgets the sign of zero, inwards (`Verif/Props/Signed.lean`). -/
register_simp_attr sz
