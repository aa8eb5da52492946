.lake/
*.olean
*.ilean
