*.olean
.lake/
build/
__pycache__/
