{
"C13":{"note":"The user's expectation (total correlation for every input) is refuted for constant variables; the theorem states exactly when it holds."},
"C14":{"note":"Wrap-around beyond the bound is exhibited by a witness."},
"C17":{"note":"The user's expectation (conditional total correlation) is refuted for three or more variables; the theorem states exactly when it holds."},
"C39":{"note":"Negative: the expectation that a changed default base is used is refuted for the model of the code."},
"C41":{"note":"Restoration is proved for completed tests; for interrupted tests the violation is proved."},
"C44":{"note":"Refuted for ordinal MI/CMI/CTE and discrete CTE; the discrete MI, CMI and TE values are proved to be resampled."},
"C48":{"note":"Pool.map is taken by its contract; process scheduling is not modelled."}
}
