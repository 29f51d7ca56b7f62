"""Theorems strengthened because of a mutant, by its number in mutants.py."""
TIGHTENED = {15: ["C20_visit"], 118: ["C08_return_inferred", "C54_inferred_partial"]}
