{"C19": {"note": "The claim without the exception is false of the code (C19_mixed_pair_breaks, C19_mismatch_tears); the exception is exact: C19_lb_le_ub and C19_mismatch_tears."}}