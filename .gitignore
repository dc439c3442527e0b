.lake/
__pycache__/
