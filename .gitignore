lean/.lake/
