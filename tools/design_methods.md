## How the properties are proved

| group | method |
|---|---|
| expressions and segments (C01, C61, C65) | structural induction on expressions; `HasDerivAt` |
| assembly (C02, C04 - C08, C58, C59, C67) | induction over stamp lists, histories of the builder, the element list with its counter |
| device equations (C09 - C18, C31, C66) | derivatives of the Lagrangian evaluated, identities of complex numbers |
| optimization (C19, C20, C35, C69, C70) | symmetry of couplings, gradients of the network Lagrangian |
| Newton and homotopy (C03, C21 - C25, C32, C33, C68) | induction on iterations, for every stamper and linear solver |
| device control (C26 - C30) | invariants of the state machines and the outer loop |
| results (C34 - C38, C62, C63) | complex identities on solutions |
| time series and command line (C39 - C43, C71, C72) | induction over loads, hours and rounds |
| islands (C44 - C46, C73, C74) | paths as reflexive transitive closure, for every correct list of components |
| RAW (C47 - C51, C75 - C81) | induction over records; refinement to Kirchhoff's laws of the case |
| GridLAB-D rows (C52, C56, C64, C82, C83, C88) | induction over rows and characters |
| GridLAB-D lines (C53 - C55, C89, C93 - C95) | matrix algebra, positive definiteness, Schur complements |
| GridLAB-D files (C60, C84 - C87, C90 - C92, C92, C96 - C108) | the loop over objects as a fold that only appends; every device of the network is related to the object that asks for it |
| start vector (C57) | list induction |

